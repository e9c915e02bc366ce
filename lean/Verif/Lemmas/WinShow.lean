import Verif.Lemmas.WinErase
import Verif.Lemmas.Session
import Verif.Lemmas.WinSession
import Verif.Props.WinScreen

/-! # Refreshing a Windows screen -/

namespace Mortal
open Spec

variable {u : UEnv} {k : Nat}

/-! ## Terminals without attributes -/

/-- What a cell shows, without its attributes. -/
def Spec.TCell.bare : TCell → TCell Unit
  | .narrow x _ => .narrow x ()
  | .left x _ => .left x ()
  | .right => .right
  | .torn => .torn

/-- A terminal without attributes. -/
def Spec.Term.bare (t : Term) : Term Unit where
  size := t.size
  cell := fun q => (t.cell q).bare
  cur := t.cur
  last := t.last
  attrs := ()
  bce := t.bce

theorem bare_set (t : Term) (p : Cursor) (c : TCell) : (t.set p c).bare = t.bare.set p c.bare := by
  unfold Term.set Term.bare
  simp only [Term.mk.injEq, true_and, and_true]
  funext q
  split <;> rfl

theorem bare_cut (t : Term) (p : Cursor) : (t.cut p).bare = t.bare.cut p := by
  have e : t.bare.cell p = (t.cell p).bare := rfl
  unfold Term.cut
  rw [e]
  cases t.cell p with
  | narrow x d => rfl
  | left x d => exact bare_set _ _ _
  | right => exact bare_set _ _ _
  | torn => rfl

theorem bare_putChar (t : Term) (ch : Char) :
    t.bare.putChar u ch = (t.putChar u ch).map Term.bare := by
  unfold Term.putChar
  have hl : t.bare.last = t.last := rfl
  have hc : t.bare.cur = t.cur := rfl
  have hz : t.bare.size = t.size := rfl
  rw [hl, hc, hz]
  by_cases h1 : Control ch
  · rw [if_pos h1, if_pos h1]; rfl
  rw [if_neg h1, if_neg h1]
  by_cases h2 : u.w ch = 0
  · rw [if_pos h2, if_pos h2]
    cases t.last with
    | none => rfl
    | some p =>
      have e : t.bare.cell p = (t.cell p).bare := rfl
      dsimp only
      rw [e]
      cases t.cell p with
      | narrow x d => exact congrArg some (bare_set t p (.narrow (x ++ [ch]) d)).symm
      | left x d => exact congrArg some (bare_set t p (.left (x ++ [ch]) d)).symm
      | right => rfl
      | torn => rfl
  · rw [if_neg h2, if_neg h2]
    cases t.cur with
    | none => rfl
    | some p =>
      dsimp only
      by_cases h3 : u.w ch = 1
      · rw [if_pos h3, if_pos h3, ← bare_cut]
        exact congrArg (fun g : Term Unit => some { g with cur := t.advance p 1, last := some p })
          (bare_set (t.cut p) p (.narrow [ch] t.attrs)).symm
      · rw [if_neg h3, if_neg h3]
        by_cases h4 : u.w ch = 2 ∧ p.column + 1 < t.size.columns
        · rw [if_pos h4, if_pos h4, ← bare_cut, ← bare_cut]
          have e1 := bare_set ((t.cut p).cut ⟨p.line, p.column + 1⟩) p (.left [ch] t.attrs)
          have e2 := bare_set (((t.cut p).cut ⟨p.line, p.column + 1⟩).set p (.left [ch] t.attrs))
            ⟨p.line, p.column + 1⟩ .right
          rw [e1] at e2
          exact congrArg
            (fun g : Term Unit => some { g with cur := t.advance p 2, last := some p }) e2.symm
        · rw [if_neg h4, if_neg h4]; rfl

theorem not_control_of_putChar {A : Type} {t t' : Term A} {ch : Char} (h : t.putChar u ch = some t') :
    ¬ Control ch := by
  intro hc
  unfold Term.putChar at h
  rw [if_pos hc] at h
  cases h

theorem out_putText : ∀ (s : List Char) (o : OutBuf) (t t' : Term), o.glyph = t.bare →
    t.putText u s = some t' →
    ∃ o', o.putText u s = some o' ∧ o' = { o with glyph := t'.bare, attr := o'.attr }
  | [], o, t, t', hg, e => by
    cases e
    exact ⟨o, rfl, by rw [← hg]⟩
  | ch :: s, o, t, t', hg, e => by
    simp only [Term.putText] at e
    rw [Option.bind_eq_some_iff] at e
    obtain ⟨t1, e1, e2⟩ := e
    have h1 : o.glyph.putChar u ch = some t1.bare := by rw [hg, bare_putChar, e1]; rfl
    simp only [OutBuf.putText]
    have h2 : ∃ f, o.putChar u ch = some { o with glyph := t1.bare, attr := f } := by
      unfold OutBuf.putChar; rw [if_neg (not_control_of_putChar h1), h1]; exact ⟨_, rfl⟩
    obtain ⟨f, h2⟩ := h2
    obtain ⟨o', e3, e4⟩ := out_putText s { o with glyph := t1.bare, attr := f } t1 t' rfl e2
    rw [h2, Option.bind_some]
    exact ⟨o', e3, by rw [e4]⟩

theorem out_attr_marks : ∀ (ms : List Char) (o o' : OutBuf), (∀ m ∈ ms, u.w m = 0 ∧ ¬ Control m) →
    o.putText u ms = some o' → o'.attr = o.attr
  | [], o, o', _, e => by cases e; rfl
  | m :: ms, o, o', hm, e => by
    simp only [OutBuf.putText, OutBuf.putChar, if_neg (hm m (List.mem_cons_self ..)).2,
      Option.bind_eq_some_iff, Option.map_eq_some_iff] at e
    obtain ⟨o1, ⟨g, hg, rfl⟩, e2⟩ := e
    rw [out_attr_marks ms _ o' (fun m h => hm m (List.mem_cons_of_mem _ h)) e2]
    funext q
    have := (hm m (List.mem_cons_self ..)).1
    dsimp only
    cases o.glyph.cur with
    | none => rfl
    | some p => dsimp only; rw [if_neg]; rintro (h | h) <;> omega

theorem out_attr_cell {c : Cell} (hg : CellGood u c) {o o' : OutBuf} {p : Cursor}
    (hp : o.glyph.cur = some p) (e : o.putText u c.text = some o') (q : Cursor) :
    o'.attr q = if q = p ∨ (c.isWide u = true ∧ q = ⟨p.line, p.column + 1⟩) then o.word
      else o.attr q := by
  obtain ⟨ch, ms, ht, hw, hctl, hms⟩ := hg
  have hwide := wide_head (u := u) ht
  rw [ht] at e
  simp only [OutBuf.putText, OutBuf.putChar, if_neg hctl, Option.bind_eq_some_iff,
    Option.map_eq_some_iff] at e
  obtain ⟨o1, ⟨g, hg, rfl⟩, e2⟩ := e
  rw [out_attr_marks ms _ o' (fun m h => hms m h) e2]
  dsimp only
  rw [hp]
  dsimp only
  have : u.w ch ≠ 0 := by omega
  simp only [ne_eq, this, not_false_eq_true, true_and, hwide]

/-! ## A writer with given attributes -/

theorem ghost_exists (th : Theme) : ∃ w : WS, w.theme = th ∧ devAttrs w.log = view th := by
  have hl : Lk (WS.new []) (Term.blank ⟨1, 1⟩) := ⟨rfl, rfl⟩
  have hf : FullAttrs demoDB := fun _ _ => ⟨_, rfl, fun _ => rfl⟩
  obtain ⟨w, -, -, h1, -, -, -, h2⟩ := setAttrs_step demoEnv hf th.fg th.bg th.style hl
  refine ⟨w, h1, ?_⟩
  have := h2.dev
  rw [h1] at this
  exact this

/-- A writer with these attributes. -/
noncomputable def gw (th : Theme) : WS := Classical.choose (ghost_exists th)

theorem gw_theme (th : Theme) : (gw th).theme = th := (Classical.choose_spec (ghost_exists th)).1

theorem gw_lk {th : Theme} {t : Term} (h : t.attrs = view th) : Lk (gw th) t :=
  ⟨by rw [gw_theme]; exact (Classical.choose_spec (ghost_exists th)).2, by rw [gw_theme]; exact h⟩

/-- The screen as one of a terminal with escape sequences. -/
noncomputable def gscr (x : WScr) : Scr := { x.toSData with w := gw x.w.theme }

theorem view_look {wt : WTerm} {a b : Theme} (h : view a = view b) :
    themeWord wt a = themeWord wt b := by
  have inj : ∀ x y : Color, ansi x = ansi y → x = y := by
    intro x y; cases x <;> cases y <;> decide
  have inj' : ∀ x y : Option Color, x.map ansi = y.map ansi → x = y := by
    intro x y h
    cases x <;> cases y <;> simp only [Option.map_some, Option.map_none, Option.some.injEq,
      reduceCtorEq] at h
    · rfl
    · rw [inj _ _ h]
  unfold view at h
  injection h with h1 h2 h3 h4 h5 h6
  apply look_inj
  unfold themeWord
  rw [look_attrWord, look_attrWord, inj' _ _ h1, inj' _ _ h2]
  unfold wantedLook
  rw [h3, h5]

/-! ## Code of a screen -/

/-- Code that only adds to the record. -/
def SGrows {α : Type} (m : SWM α) : Prop :=
  ∀ x a x', m x = .ok a x' → ∃ D, x'.w.log = x.w.log ++ D

/-- What code does to a console and a screen if it succeeds. -/
def Leads {α : Type} (u : UEnv) (k : Nat) (c : Con) (x : WScr) (m : SWM α)
    (Q : α → Con → WScr → Prop) : Prop :=
  ∀ a x' D, m x = .ok a x' → x'.w.log = x.w.log ++ D → c.Runs u k D →
    ∃ c', c.play u k D = some c' ∧ Q a c' x'

theorem SGrows.bind {α β : Type} {m : SWM α} {f : α → SWM β} (h : SGrows m)
    (hf : ∀ a, SGrows (f a)) : SGrows (m >>= f) := by
  intro x b x' e
  obtain ⟨a, x1, e1, e2⟩ := sm_bind_ok e
  obtain ⟨D, h1⟩ := h _ _ _ e1
  obtain ⟨D', h2⟩ := hf _ _ _ _ e2
  exact ⟨D ++ D', by rw [h2, h1, List.append_assoc]⟩

theorem SGrows.pure {α : Type} (a : α) : SGrows (pure a : SWM α) := by
  intro x b x' e; cases e; exact ⟨[], by simp⟩

theorem SGrows.get : SGrows (SM.get : SWM WScr) := by
  intro x b x' e; cases e; exact ⟨[], by simp⟩

theorem SGrows.modify {f : WScr → WScr} (hf : ∀ x, (f x).w.log = x.w.log) :
    SGrows (SM.modify f) := by
  intro x b x' e; cases e; exact ⟨[], by simp [hf]⟩

theorem SGrows.ofPanics {α : Type} (y : Panics α) : SGrows (SM.ofPanics y : SWM α) := by
  intro x b x' e
  cases y with
  | none => cases e
  | some a => cases e; exact ⟨[], by simp⟩

theorem SGrows.halt {α : Type} (w : Stop) : SGrows (SM.halt w : SWM α) := by
  intro x b x' e; cases e

theorem SGrows.onT {α : Type} {m : WM α} (h : Grows m) : SGrows (onT m) := by
  intro x b x' e
  exact (h x.w).1 b x'.w (onT_ok e).1

theorem Leads.mono {α : Type} {c : Con} {x : WScr} {m : SWM α} {Q Q' : α → Con → WScr → Prop}
    (h : Leads u k c x m Q) (hq : ∀ a c' x', Q a c' x' → Q' a c' x') : Leads u k c x m Q' := by
  intro a x' D e hl hr
  obtain ⟨c', h1, h2⟩ := h a x' D e hl hr
  exact ⟨c', h1, hq _ _ _ h2⟩

theorem Leads.bind {α β : Type} {c : Con} {x : WScr} {m : SWM α} {f : α → SWM β}
    {R : α → Con → WScr → Prop} {Q : β → Con → WScr → Prop} (h : Leads u k c x m R)
    (hg : SGrows m) (hg' : ∀ a, SGrows (f a))
    (hf : ∀ a c' x', R a c' x' → Leads u k c' x' (f a) Q) : Leads u k c x (m >>= f) Q := by
  intro b x' D e hl hr
  obtain ⟨a, x1, e1, e2⟩ := sm_bind_ok e
  obtain ⟨D1, l1⟩ := hg _ _ _ e1
  obtain ⟨D2, l2⟩ := hg' _ _ _ _ e2
  have hD : D = D1 ++ D2 := by
    rw [l2, l1, List.append_assoc] at hl
    exact (List.append_cancel_left hl).symm
  subst hD
  obtain ⟨r1, r2⟩ := con_runs_append hr
  obtain ⟨c1, p1, q1⟩ := h a x1 D1 e1 l1 r1
  obtain ⟨c2, p2, q2⟩ := hf a c1 x1 q1 b x' D2 e2 l2 (r2 c1 p1)
  exact ⟨c2, by rw [con_play_append, p1]; exact p2, q2⟩

theorem Leads.pure {α : Type} {c : Con} {x : WScr} {a : α} {Q : α → Con → WScr → Prop}
    (h : Q a c x) : Leads u k c x (pure a) Q := by
  intro b x' D e hl hr
  cases e
  have : D = [] := by simpa using hl
  subst this
  exact ⟨c, rfl, h⟩

theorem Leads.get {α : Type} {c : Con} {x : WScr} {f : WScr → SWM α} {Q : α → Con → WScr → Prop}
    (h : Leads u k c x (f x) Q) : Leads u k c x (SM.get >>= f) Q := h

theorem Leads.modify {c : Con} {x : WScr} {f : WScr → WScr} (hf : (f x).w.log = x.w.log)
    {Q : Unit → Con → WScr → Prop} (h : Q () c (f x)) : Leads u k c x (SM.modify f) Q := by
  intro b x' D e hl hr
  cases e
  have : D = [] := by rw [hf] at hl; simpa using hl
  subst this
  exact ⟨c, rfl, h⟩

theorem Leads.modifyBind {α : Type} {c : Con} {x : WScr} {f : WScr → WScr} {g : Unit → SWM α}
    (hf : (f x).w.log = x.w.log) {Q : α → Con → WScr → Prop}
    (h : Leads u k c (f x) (g ()) Q) : Leads u k c x (SM.modify f >>= g) Q := by
  intro b x' D e hl hr
  exact h b x' D e (by rw [hf]; exact hl) hr

theorem Leads.panics {α β : Type} {c : Con} {x : WScr} {y : Panics β} {g : β → SWM α}
    {Q : α → Con → WScr → Prop} (h : ∀ b, y = some b → Leads u k c x (g b) Q) :
    Leads u k c x (SM.ofPanics y >>= g) Q := by
  cases y with
  | none => intro b x' D e; cases e
  | some b => exact h b rfl

theorem Leads.onT {α : Type} {c : Con} {x : WScr} {P : Con → WinSt → Prop} {m : WM α}
    {Q : α → Con → WinSt → Prop} {E : IoErr → Con → WinSt → Prop} (h : Does u k P m Q E)
    (hp : P c x.w) :
    Leads u k c x (onT m) (fun a c' x' => Q a c' x'.w ∧ x'.toSData = x.toSData) := by
  intro a x' D e hl hr
  obtain ⟨e1, e2⟩ := onT_ok e
  obtain ⟨c', h1, h2⟩ := h.ok x.w c hp a x'.w D e1 hl hr
  exact ⟨c', h1, h2, e2⟩

/-! ## The screen, the console and a terminal that shows the same -/

/-- The buffer shows what the terminal shows, with the attribute words that belong to the terminal's
attributes (only if `strict`). -/
structure Rel (wt : WTerm) (th : Theme) (strict : Prop) (t : Term) (o : OutBuf) : Prop where
  glyph : o.glyph = t.bare
  word : o.word = themeWord wt th
  pend : o.pend = []
  main : strict → ∀ q x d, (t.cell q = .narrow x d ∨ t.cell q = .left x d) →
    ∃ th', view th' = d ∧ o.attr q = themeWord wt th'
  right : strict → ∀ q x d, 0 < q.column → t.cell q = .right →
    t.cell ⟨q.line, q.column - 1⟩ = .left x d → ∃ th', view th' = d ∧ o.attr q = themeWord wt th'

/-- The buffer of the screen, and the terminal that shows the same. -/
structure Rep (wt : WTerm) (x : WScr) (c : Con) (t : Term) (o : OutBuf) : Prop where
  out : c.outs x.w.outH = some o
  active : c.active = x.w.outH
  attrs : t.attrs = view x.w.theme
  small : SmallSize t.size
  full : x.clear = true → FullWindow o
  rel : Rel wt x.w.theme (x.clear = false) t o

theorem land {c c' : Con} {s s1 s' : WinSt} {o : OutBuf} (h : CAt (c.setOut s.outH o) s1 c' s')
    (hs : s1.outH = s.outH) : c'.outs s'.outH = some o ∧ c'.active = c.active ∧
      s'.outH = s.outH ∧ s'.theme = s1.theme := by
  obtain ⟨⟨q, rfl⟩, h2⟩ := h
  refine ⟨?_, rfl, h2.outH.trans hs, h2.theme⟩
  rw [h2.outH, hs]
  exact setOut_outs _ _ _

theorem leads_setAttrs {wt : WTerm} {x : WScr} {c : Con} {t : Term} {o : OutBuf}
    (h : Rep wt x c t o) (th : Theme) :
    Leads u k c x (onT (winSetAttributes wt th)) (fun _ c' x' =>
      ∃ o', Rep wt x' c' { t with attrs := view th } o' ∧ x'.toSData = x.toSData ∧
        x'.w.theme = th) := by
  refine (Leads.onT (does_setAttributes c x.w wt th o h.out h.rel.word) (CAt.refl _ _)).mono ?_
  rintro _ c' x' ⟨h1, h2⟩
  obtain ⟨l1, l2, l3, l4⟩ := land (s1 := { x.w with theme := th }) h1 rfl
  have hc : x'.clear = x.clear := congrArg SData.clear h2
  refine ⟨_, ⟨l1, ?_, ?_, h.small, ?_, ⟨h.rel.glyph, ?_, h.rel.pend, ?_, ?_⟩⟩, h2, l4⟩
  · rw [l2, l3]; exact h.active
  · rw [l4]
  · rw [hc]; exact h.full
  · rw [l4]
  · rw [hc]; exact h.rel.main
  · rw [hc]; exact h.rel.right

theorem leads_applyAttrs {wt : WTerm} {x : WScr} {c : Con} {t : Term} {o : OutBuf}
    (h : Rep wt x c t o) (th : Theme) :
    Leads u k c x (applyAttrs wt x.w.theme th) (fun _ c' x' =>
      ∃ o', Rep wt x' c' { t with attrs := view th } o' ∧ x'.toSData = x.toSData ∧
        x'.w.theme = th) := by
  unfold applyAttrs
  by_cases he : x.w.theme = th
  · rw [if_neg (by simpa using he)]
    refine Leads.pure ⟨o, ?_, rfl, he⟩
    have : ({ t with attrs := view th } : Term) = t := by rw [← he, ← h.attrs]
    rw [this]; exact h
  · rw [if_pos he]
    exact leads_setAttrs h th

theorem leads_move {wt : WTerm} {x : WScr} {c : Con} {t : Term} {o : OutBuf}
    (h : Rep wt x c t o) {p : Cursor} (hp : InBounds p t.size) (hcur : x.real = p → t.cur = some p) :
    Leads u k c x (wsMoveCursor p) (fun _ c' x' => ∃ t' o', Rep wt x' c' t' o' ∧
      x'.toSData = { x.toSData with real := p } ∧ x'.w.theme = x.w.theme ∧
      (t' = t ∨ t' = { t with cur := some p, last := none }) ∧ t'.cur = some p) := by
  unfold wsMoveCursor
  refine Leads.get ?_
  by_cases he : x.real = p
  · rw [if_neg (by simpa using he)]
    refine Leads.pure ⟨t, o, h, ?_, rfl, Or.inl rfl, hcur he⟩
    rw [← he]
  · rw [if_pos he]
    have hz : o.glyph.size = t.size := by rw [h.rel.glyph]; rfl
    refine Leads.bind (Leads.onT (does_moveCursor c x.w p o h.out (by rw [hz]; exact h.small)
      (by rw [hz]; exact hp)) (CAt.refl _ _)) (SGrows.onT (grows_moveAbs _))
      (fun _ => SGrows.modify fun _ => rfl) ?_
    rintro _ c' x' ⟨h1, h2⟩
    obtain ⟨l1, l2, l3, l4⟩ := land h1 rfl
    have hc : x'.clear = x.clear := congrArg SData.clear h2
    refine Leads.modify rfl ⟨{ t with cur := some p, last := none }, o.moved p,
      ⟨l1, ?_, ?_, h.small, ?_, ⟨?_, ?_, h.rel.pend, ?_, ?_⟩⟩, ?_, l4, Or.inr rfl, rfl⟩
    · rw [l2]; dsimp only; rw [l3]; exact h.active
    · dsimp only; rw [l4]; exact h.attrs
    · dsimp only; rw [hc]; exact h.full
    · unfold OutBuf.moved; dsimp only; rw [h.rel.glyph]; rfl
    · dsimp only; rw [l4]; exact h.rel.word
    · dsimp only; rw [hc]; exact h.rel.main
    · dsimp only; rw [hc]; exact h.rel.right
    · dsimp only; rw [h2]

theorem sgrows_move (p : Cursor) : SGrows (wsMoveCursor p) := by
  unfold wsMoveCursor
  refine SGrows.bind .get fun _ => ?_
  split
  · exact SGrows.bind (.onT (grows_moveAbs _)) fun _ => .modify fun _ => rfl
  · exact SGrows.pure _

theorem sgrows_apply (wt : WTerm) (a b : Theme) : SGrows (applyAttrs wt a b) := by
  unfold applyAttrs
  split
  · exact .onT (grows_setAttributes _ _)
  · exact SGrows.pure _

theorem grows_writeStr (s : List Char) : Grows (winWriteStr s) :=
  Grows.bind grows_get fun _ => grows_writeLoop _ _ _

theorem sgrows_drawCell (wt : WTerm) (src : Theme) (p : Cursor) (c : Cell) :
    SGrows (wsDrawCell wt src p c) := by
  unfold wsDrawCell
  exact SGrows.bind (sgrows_move _) fun _ => SGrows.bind (sgrows_apply _ _ _) fun _ =>
    SGrows.bind (.onT (grows_writeStr _)) fun _ => SGrows.bind .get fun _ =>
    SGrows.bind (.ofPanics _) fun _ => .modify fun _ => rfl

theorem sgrows_drawLoop (u : UEnv) (wt : WTerm) : ∀ (f : Nat) (r : Nat × Nat) (src : Theme),
    SGrows (wsDrawLoop u wt f r src)
  | 0, _, _ => SGrows.halt _
  | f + 1, (idx, n), src => by
    unfold wsDrawLoop
    refine SGrows.bind .get fun _ => SGrows.bind (.ofPanics _) fun r =>
      SGrows.bind (.modify fun _ => rfl) fun _ => ?_
    rcases r with ⟨b, rest, found⟩
    dsimp only
    cases found with
    | none => exact SGrows.pure _
    | some v => exact SGrows.bind (sgrows_drawCell _ _ _ _) fun _ => sgrows_drawLoop u wt f _ _

/-- Drawing one cell. -/
theorem leads_drawCell {wt : WTerm} {x : WScr} {c : Con} {t : Term} {o : OutBuf}
    (h : Rep wt x c t o) {p : Cursor} (hp : InBounds p t.size) {cell : Cell} (hg : CellGood u cell)
    (hfit : cell.isWide u = true → p.column + 1 < t.size.columns) (hpair : t.Paired)
    (hcur : x.real = p → t.cur = some p) :
    Leads u k c x (wsDrawCell wt x.w.theme p cell) (fun _ c' x' => ∃ t' o', Rep wt x' c' t' o' ∧
      x'.w.theme = cellTheme cell ∧ t'.size = t.size ∧ t'.Paired ∧
      (∀ q, t'.cell q = drawnCells u t.cell p cell q) ∧
      x'.toSData = { x.toSData with real := ⟨p.line, p.column + 1⟩ } ∧
      t'.cur = t.advance p (if cell.isWide u then 2 else 1)) := by
  unfold wsDrawCell
  refine Leads.bind (leads_move h hp hcur) (sgrows_move _) (fun _ =>
    SGrows.bind (sgrows_apply _ _ _) fun _ =>
    SGrows.bind (.onT (grows_writeStr _)) fun _ => SGrows.bind .get fun _ =>
    SGrows.bind (.ofPanics _) fun _ => .modify fun _ => rfl) ?_
  rintro _ c1 x1 ⟨t1, o1, h1, d1, th1, hor, hc1⟩
  rw [← th1]
  refine Leads.bind (leads_applyAttrs h1 _) (sgrows_apply _ _ _) (fun _ =>
    SGrows.bind (.onT (grows_writeStr _)) fun _ => SGrows.bind .get fun _ =>
    SGrows.bind (.ofPanics _) fun _ => .modify fun _ => rfl) ?_
  rintro _ c2 x2 ⟨o2, h2, d2, th2⟩
  have ht1 : t1.size = t.size ∧ t1.cell = t.cell := by rcases hor with rfl | rfl <;> exact ⟨rfl, rfl⟩
  obtain ⟨hz1, hcell1⟩ := ht1
  have hpair1 : Term.Paired { t1 with attrs := view (cellTheme cell) } := by
    unfold Term.Paired at hpair ⊢
    dsimp only
    rw [hz1, hcell1]; exact hpair
  obtain ⟨t3, e3, z3, a3, p3, cl3, cu3⟩ := putText_cell (u := u) hg
    (t := { t1 with attrs := view (cellTheme cell) }) hc1 (by dsimp only; rw [hz1]; exact hp)
    (by dsimp only; rw [hz1]; exact hfit) hpair1
  obtain ⟨o3, eo3, ho3⟩ := out_putText cell.text o2 _ t3 h2.rel.glyph e3
  have hat := out_attr_cell hg (o := o2) (o' := o3) (p := p) (by rw [h2.rel.glyph]; exact hc1) eo3
  refine Leads.bind (Leads.onT (does_writeStr c2 x2.w o2 o3 cell.text h2.out h2.rel.pend eo3)
    (CAt.refl _ _)) (.onT (grows_writeStr _)) (fun _ => SGrows.bind .get fun _ =>
    SGrows.bind (.ofPanics _) fun _ => .modify fun _ => rfl) ?_
  rintro _ c4 x4 ⟨h4, d4⟩
  obtain ⟨l1, l2, l3, l4⟩ := land h4 rfl
  have d5 : x4.toSData = { x.toSData with real := p } := d4.trans (d2.trans d1)
  have hc2 : x2.clear = x.clear := by
    have : x2.clear = x1.clear := congrArg SData.clear d2
    have h' := congrArg SData.clear d1
    exact this.trans h'
  have hc4 : x4.clear = x.clear := by have h' := congrArg SData.clear d5; exact h'
  have hr4 : x4.real = p := by have h' := congrArg SData.real d5; exact h'
  refine Leads.get (Leads.panics fun col hcol => ?_)
  have hcol : col = p.column + 1 := by
    rw [hr4] at hcol
    unfold uadd at hcol
    split at hcol
    · cases hcol; rfl
    · cases hcol
  have hcells : ∀ q, t3.cell q = drawnCells u t.cell p cell q := by
    intro q
    rw [cl3]
    dsimp only
    rw [hcell1]
    unfold drawnCells pic
    cases cell.isWide u <;> rfl
  refine Leads.modify rfl ⟨t3, o3, ⟨l1, ?_, ?_, ?_, ?_, ⟨?_, ?_, ?_, ?_, ?_⟩⟩, ?_, ?_, p3, hcells,
    ?_, ?_⟩
  · rw [l2]; dsimp only; rw [l3]; exact h2.active
  · dsimp only; rw [l4, th2, a3]
  · rw [z3]; dsimp only; rw [hz1]; exact h.small
  · dsimp only
    rw [hc4, ho3, ← hc2]
    intro hh
    obtain ⟨f1, f2, f3⟩ := h2.full hh
    refine ⟨f1, f2, ?_⟩
    rw [h2.rel.glyph] at f3
    show _ = ((t3.size.lines : Nat) : Int)
    rw [z3]; exact f3
  · rw [ho3]
  · dsimp only; rw [ho3, l4]; exact h2.rel.word
  · rw [ho3]; exact h2.rel.pend
  · dsimp only
    rw [hc4, ← hc2]
    intro hst q y d hq
    rw [hat]
    by_cases hqp : q = p ∨ cell.isWide u = true ∧ q = ⟨p.line, p.column + 1⟩
    · rw [if_pos hqp, h2.rel.word, th2]
      refine ⟨cellTheme cell, ?_, rfl⟩
      rw [hcells] at hq
      unfold drawnCells narrowCells wideCells pic at hq
      rcases hqp with rfl | ⟨hw, rfl⟩
      · simp only [if_true] at hq
        cases hw : cell.isWide u <;> simp only [hw, if_true, Bool.false_eq_true, if_false] at hq
        · rcases hq with hq | hq <;> cases hq
          rfl
        · rcases hq with hq | hq <;> cases hq
          rfl
      · rw [if_pos hw, if_neg (by rw [cursor_ext]; dsimp only; omega)] at hq
        simp only [if_true] at hq
        rcases hq with hq | hq <;> cases hq
    · rw [if_neg hqp]
      refine h2.rel.main hst q y d ?_
      dsimp only
      rw [hcell1]
      rw [hcells] at hq
      unfold drawnCells narrowCells wideCells at hq
      have hn : q ≠ p := fun e => hqp (Or.inl e)
      cases hw : cell.isWide u with
      | false =>
        simp only [hw, Bool.false_eq_true, if_false, hn] at hq
        split at hq
        · rcases hq with hq | hq <;> cases hq
        split at hq
        · rcases hq with hq | hq <;> cases hq
        · exact hq
      | true =>
        have hn2 : q ≠ ⟨p.line, p.column + 1⟩ := fun e => hqp (Or.inr ⟨hw, e⟩)
        simp only [hw, if_true, hn, hn2, if_false] at hq
        split at hq
        · rcases hq with hq | hq <;> cases hq
        split at hq
        · rcases hq with hq | hq <;> cases hq
        · exact hq
  · dsimp only
    rw [hc4, ← hc2]
    intro hst q y d h0 hq hl
    rw [hat]
    rw [hcells] at hq hl
    unfold drawnCells narrowCells wideCells at hq hl
    have hqn : q ≠ p := by
      intro e
      rw [if_pos e, if_pos e] at hq
      unfold pic at hq
      cases hw : cell.isWide u <;> simp [hw] at hq
    cases hw : cell.isWide u with
    | false =>
      simp only [hw, Bool.false_eq_true, if_false, hqn, false_and, or_false] at hq hl ⊢
      split at hq
      · cases hq
      split at hq
      · cases hq
      split at hl
      · unfold pic at hl
        rw [hw] at hl
        cases hl
      split at hl
      · cases hl
      split at hl
      · cases hl
      refine h2.rel.right hst q y d h0 ?_ ?_
      · dsimp only; rw [hcell1]; exact hq
      · dsimp only; rw [hcell1]; exact hl
    | true =>
      simp only [hw, if_true, hqn, false_or, true_and, if_false] at hq hl ⊢
      by_cases hq2 : q = ⟨p.line, p.column + 1⟩
      · rw [if_pos hq2, h2.rel.word, th2]
        refine ⟨cellTheme cell, ?_, rfl⟩
        rw [if_pos (by rw [hq2, cursor_ext]; exact ⟨rfl, rfl⟩)] at hl
        unfold pic at hl
        rw [if_pos hw] at hl
        cases hl
        rfl
      · rw [if_neg hq2] at hq ⊢
        split at hq
        · cases hq
        split at hq
        · cases hq
        split at hl
        · rename_i h5
          exfalso
          apply hq2
          rw [cursor_ext] at h5 ⊢
          dsimp only at h5 ⊢
          omega
        split at hl
        · cases hl
        split at hl
        · cases hl
        split at hl
        · cases hl
        refine h2.rel.right hst q y d h0 ?_ ?_
        · dsimp only; rw [hcell1]; exact hq
        · dsimp only; rw [hcell1]; exact hl
  · exact l4.trans th2
  · rw [z3]; exact hz1
  · dsimp only
    rw [d5, hcol]
  · rw [cu3]
    unfold Term.advance
    dsimp only
    rw [hz1]

/-- No cells are excepted. -/
abbrev noCell : Nat → Prop := fun _ => False

theorem Leads.congr {α : Type} {c : Con} {x : WScr} {m m' : SWM α} {Q : α → Con → WScr → Prop}
    (h : Leads u k c x m' Q) (e : m x = m' x) : Leads u k c x m Q := by
  intro a x' D e' hl hr
  exact h a x' D (e ▸ e') hl hr

theorem leads_drawLoop (hu : SpaceOk u) {wt : WTerm} {X : Nat → Prop} :
    ∀ (m n f idx : Nat) (x : WScr) (c : Con) (t : Term) (o : OutBuf), n ≤ m → n < f →
      x.buf.buffer.length = idx + n → Sync u X idx (gscr x) t → Rep wt x c t o →
    Leads u k c x (wsDrawLoop u wt f (idx, n) x.w.theme) (fun _ c' x' => ∃ t' o',
      Sync u X (idx + n) (gscr x') t' ∧ Rep wt x' c' t' o' ∧
      x'.buf = { x.buf with back := x'.buf.back } ∧ x'.clear = x.clear ∧
      (AllNarrow t → NoWide u x.buf → AllNarrow t') ∧ (Shy u X (gscr x) t → Shy u X (gscr x') t') ∧
      Unmarked u (gscr x) (gscr x')) := by
  intro m
  have done : ∀ (f idx : Nat) (x : WScr) (c : Con) (t : Term) (o : OutBuf),
      Sync u X idx (gscr x) t → Rep wt x c t o →
      Leads u k c x (wsDrawLoop u wt (f + 1) (idx, 0) x.w.theme) (fun _ c' x' => ∃ t' o',
      Sync u X (idx + 0) (gscr x') t' ∧ Rep wt x' c' t' o' ∧
      x'.buf = { x.buf with back := x'.buf.back } ∧ x'.clear = x.clear ∧
      (AllNarrow t → NoWide u x.buf → AllNarrow t') ∧ (Shy u X (gscr x) t → Shy u X (gscr x') t') ∧
      Unmarked u (gscr x) (gscr x')) := by
    intro f idx x c t o h hr
    unfold wsDrawLoop
    refine Leads.get (Leads.panics fun r hn => ?_)
    cases hn
    refine Leads.modifyBind rfl ?_
    exact Leads.pure ⟨t, o, h, hr, rfl, rfl, fun a _ => a, id, unmarked_same rfl⟩
  induction m with
  | zero =>
    intro n f idx x c t o hm hf hlen h hr
    obtain rfl : n = 0 := by omega
    obtain ⟨f, rfl⟩ : ∃ g, f = g + 1 := ⟨f - 1, by omega⟩
    exact done f idx x c t o h hr
  | succ m ih =>
    intro n f idx x c t o hm hf hlen h hr
    obtain ⟨f, rfl⟩ : ∃ g, f = g + 1 := ⟨f - 1, by omega⟩
    cases n with
    | zero => exact done f idx x c t o h hr
    | succ n =>
      have hlt : idx < x.buf.buffer.length := by omega
      have hb : x.buf.buffer[idx]? = some x.buf.buffer[idx] := List.getElem?_eq_getElem hlt
      have hlt' : idx < x.buf.back.length := by
        have h1 := h.grid.backLen
        have h2 := h.grid.len
        have h1 : x.buf.back.length = _ := h1
        have h2 : x.buf.buffer.length = _ := h2
        omega
      have hk : x.buf.back[idx]? = some x.buf.back[idx] := List.getElem?_eq_getElem hlt'
      generalize x.buf.buffer[idx] = cell at hb
      generalize x.buf.back[idx] = old at hk
      have hmem := List.mem_of_getElem? hb
      have hne : cell.text ≠ [] := h.grid.text cell hmem
      have hsk : skipOf u cell n ≤ n := by unfold skipOf; split <;> omega
      have hidx : idx + 1 + skipOf u cell n + (n - skipOf u cell n) = idx + (n + 1) := by omega
      by_cases hco : cell = old
      · subst hco
        have := ih (n - skipOf u cell n) (f + 1) (idx + 1 + skipOf u cell n) x c t o (by omega)
          (by omega) (by omega) (h.skip hu hlen hb hk) hr
        rw [hidx] at this
        refine this.congr ?_
        unfold wsDrawLoop
        show (SM.ofPanics (x.buf.nextCell u (n + 1) idx) >>= _) x = (SM.ofPanics (x.buf.nextCell u
          (n - skipOf u cell n) (idx + 1 + skipOf u cell n)) >>= _) x
        rw [nextCell_same hb hne hk]
      · have hin : InBounds (posOf t.size idx) t.size := by
          rw [h.size]
          exact (inBounds_posOf h.grid.size).mpr (by rw [← h.grid.len]; exact hlt)
        have hfit : cell.isWide u = true → idx % t.size.columns + 1 < t.size.columns := by
          intro hw; rw [h.size]; exact (h.torn idx cell hb hw).1
        unfold wsDrawLoop
        refine Leads.get (Leads.panics fun r hn => ?_)
        rw [nextCell_draw hb hne hk hco (by have := h.grid.size.2.1; exact Nat.ne_of_gt this),
          Option.some.injEq] at hn
        subst hn
        refine Leads.modifyBind rfl ?_
        dsimp only
        have hz : x.buf.size = t.size := h.size.symm
        have hp : posOf x.buf.size idx = posOf t.size idx := by rw [hz]
        rw [hp]
        have hrep : Rep wt { x with buf := { x.buf with back := x.buf.back.set idx cell } } c t o :=
          ⟨hr.out, hr.active, hr.attrs, hr.small, hr.full, hr.rel⟩
        refine Leads.bind (leads_drawCell (x := { x with buf := { x.buf with back := x.buf.back.set idx cell } })
          hrep hin (h.good cell hmem) hfit h.paired (h.cur_at hu hlt)) (sgrows_drawCell _ _ _ _)
          (fun _ => sgrows_drawLoop _ _ _ _ _) ?_
        rintro _ c1 x1 ⟨t1, o1, r1, th1, z1, p1, cl1, d1, cu1⟩
        have hb1 : x1.buf = { x.buf with back := x.buf.back.set idx cell } := by
          have h' := congrArg SData.buf d1; exact h'
        have hc1 : x1.clear = x.clear := by have h' := congrArg SData.clear d1; exact h'
        have hr1 : x1.real = ⟨(posOf t.size idx).line, (posOf t.size idx).column + 1⟩ := by
          have h' := congrArg SData.real d1; exact h'
        have hsync : Sync u X (idx + 1 + skipOf u cell n) (gscr x1) t1 :=
          h.drawn hu hlen hb (fun e => hco (Option.some.inj (e.symm.trans hk))) (gw_lk r1.attrs) z1 p1
            cl1 hr1 cu1 hb1
        have hbe : x1.buf.buffer = x.buf.buffer := by rw [hb1]
        have := ih (n - skipOf u cell n) f (idx + 1 + skipOf u cell n) x1 c1 t1 o1 (by omega)
          (by omega) (by rw [hbe]; omega) hsync r1
        rw [hidx, th1] at this
        refine this.mono ?_
        rintro _ c2 x2 ⟨t2, o2, s2, r2, b2, k2, a2, v2, w2⟩
        refine ⟨t2, o2, s2, r2, ?_, k2.trans hc1, fun ha hnw => ?_, fun hX => v2 (hX.drawn h.toBase hb
          (fun e => hco (Option.some.inj (e.symm.trans hk))) z1 cl1 hb1), (unmarked_mark (s := gscr x) (s' := gscr x1) h.live hb1).trans w2 hbe⟩
        · rw [b2, hb1]
        · refine a2 (allNarrow_drawn ha (hnw cell hmem) cl1) ?_
          unfold NoWide
          rw [hbe]; exact hnw

/-- There are no such cells when the terminal is about to be cleared. -/
theorem shy_cleared {X : Nat → Prop} {s : Scr} {t : Term} (h : Held u X s t) (hc : s.clear = true)
    (hX : Shy u X s t) (j : Nat) : ¬ X j := by
  intro hj
  obtain ⟨-, ⟨c, q1, q2, -⟩, -⟩ := hX j hj
  exact h.grid.text c (List.mem_of_getElem? q1) (h.inval hc c (List.mem_of_getElem? q2))

/-- The terminal has just been cleared. -/
theorem sync_cleared {X : Nat → Prop} {s s0 : Scr} {t t0 : Term} (h : Held u X s t)
    (hc : s.clear = true) (halt : (∀ j, ¬ X j) ∨ NoWide u s.buf)
    {d : DevAttrs} (ht : t0 = { t with cell := fun _ => .narrow [' '] d, cur := some ⟨0, 0⟩, last := none })
    (hb : s0.buf = s.buf) (hlk : Lk s0.w t0) : Sync u X 0 s0 t0 := by
  have hiv := h.inval hc
  subst ht
  refine { grid := by rw [hb]; exact h.grid, good := by rw [hb]; exact h.good,
           torn := by rw [hb]; exact h.torn, size := by rw [hb]; exact h.size,
           l32 := by rw [hb]; exact h.l32, c32 := by rw [hb]; exact h.c32, paired := ?_, lk := hlk,
           bk := ?_, live := Or.inl rfl, fresh := ?_, done := ?_, cur := ?_,
           alt := ?_ }
  · constructor
    · intro l c e; cases e
    · intro l c x d e; cases e
  · rw [hb]
    intro j c hj hne
    exact absurd (hiv c (List.mem_of_getElem? hj)) hne
  · intro j c _ _ _ _ hk
    constructor <;> (intro e; cases e)
  · intro j c hj; omega
  · refine Or.inr ⟨rfl, rfl, ?_⟩
    rw [hb]
    intro e
    have hpos : 0 < s.buf.size.lines * s.buf.size.columns :=
      Nat.mul_pos h.grid.size.1 h.grid.size.2.1
    have hk : s.buf.back[0]? = some (s.buf.back[0]'(by rw [h.grid.backLen]; exact hpos)) :=
      List.getElem?_eq_getElem _
    rw [hk] at e
    have h1 := h.grid.text _ (List.mem_of_getElem? e)
    exact h1 (hiv _ (List.mem_of_getElem? hk))
  · rw [hb]
    exact halt.imp (fun hX => shy_none hX _ _) fun hn => ⟨fun q => ⟨_, _, rfl⟩, hn⟩

theorem sgrows_clearIfNeeded (wt : WTerm) : SGrows (wsClearIfNeeded wt) := by
  unfold wsClearIfNeeded SM.when
  refine SGrows.bind .get fun s => ?_
  split
  · exact SGrows.bind (.onT (grows_clearScreen _)) fun _ => .modify fun _ => rfl
  · exact SGrows.pure _

theorem leads_clearIfNeeded (hsp : u.w ' ' = 1) {wt : WTerm} {X : Nat → Prop} {x : WScr} {c : Con} {t : Term}
    {o : OutBuf} (h : Held u X (gscr x) t) (hst : NoStale u X (gscr x) t)
    (halt : Shy u X (gscr x) t ∨ ((x.clear = true ∨ AllNarrow t) ∧ NoWide u x.buf)) (hr : Rep wt x c t o) :
    Leads u k c x (wsClearIfNeeded wt) (fun _ c' x' => ∃ t' o',
      Sync u X 0 (gscr x') t' ∧ Rep wt x' c' t' o' ∧ x'.buf = x.buf ∧ x'.clear = false ∧
      ((x.clear = true ∨ AllNarrow t) → AllNarrow t') ∧
      (Shy u X (gscr x) t → Shy u X (gscr x') t')) := by
  unfold wsClearIfNeeded SM.when
  refine Leads.get ?_
  cases hc : x.clear with
  | false =>
    rw [if_neg (by simp)]
    refine Leads.pure ⟨t, o, ?_, hr, rfl, hc, fun ha => by simpa using ha, id⟩
    refine { h.toBase with live := Or.inl rfl, fresh := ?_, done := ?_, cur := ?_,
                           alt := ?_ }
    · intro j cl _ hl hx hb hk
      exact hst hc j cl hl hx hb hk
    · intro j cl hj; omega
    · exact Or.inl (h.cur hc)
    · refine halt.imp id fun ⟨h1, h2⟩ => ⟨?_, h2⟩
      rcases h1 with h1 | h1
      · rw [hc] at h1; cases h1
      · exact h1
  | true =>
    rw [if_pos rfl]
    have hz : o.glyph.size = t.size := by rw [hr.rel.glyph]; rfl
    refine Leads.bind (Leads.onT (does_clearScreen hsp c x.w wt o hr.out (by rw [hz]; exact hr.small)
      (hr.full hc)) (CAt.refl _ _)) (.onT (grows_clearScreen _)) (fun _ => .modify fun _ => rfl) ?_
    rintro _ c' x' ⟨h1, h2⟩
    obtain ⟨l1, l2, l3, l4⟩ := land h1 rfl
    have hb : x'.buf = x.buf := congrArg SData.buf h2
    let t0 : Term := { t with cell := fun _ => .narrow [' '] .plain, cur := some ⟨0, 0⟩, last := none }
    have ha0 : t0.attrs = view x'.w.theme := by rw [l4]; exact hr.attrs
    have hno : Shy u X (gscr x) t → ∀ j, ¬ X j := shy_cleared h hc
    refine Leads.modify rfl ⟨t0, o.wiped wt.defAttrs, ?_, ⟨l1, ?_, ha0, hr.small, ?_, ?_⟩, hb, rfl, ?_,
      fun hX => shy_none (hno hX) _ _⟩
    · exact sync_cleared h hc (halt.imp hno fun h => h.2) rfl hb (gw_lk ha0)
    · rw [l2]; dsimp only; rw [l3]; exact hr.active
    · intro e; cases e
    · refine ⟨?_, ?_, hr.rel.pend, ?_, ?_⟩
      · unfold OutBuf.wiped
        dsimp only
        rw [hr.rel.glyph]
        rfl
      · dsimp only; rw [l4]; exact hr.rel.word
      · rintro - q y d hq
        refine ⟨plainTheme, ?_, (themeWord_plain wt).symm⟩
        rcases hq with hq | hq
        · have hq : TCell.narrow [' '] DevAttrs.plain = .narrow y d := hq
          cases hq
          rfl
        · have hq : TCell.narrow [' '] DevAttrs.plain = .left y d := hq
          cases hq
      · rintro - q y d - hq
        have hq : TCell.narrow [' '] DevAttrs.plain = .right := hq
        cases hq
    · exact fun _ q => ⟨_, _, rfl⟩

theorem Sync.keep {X : Nat → Prop} {s s' : Scr} {t t' : Term} {n : Nat} (h : Sync u X n s t)
    (hb : s'.buf = s.buf) (hr : s'.real = s.real) (hl : Lk s'.w t') (hsz : t'.size = t.size)
    (hc : t'.cell = t.cell) (hcu : t'.cur = t.cur) : Sync u X n s' t' := by
  refine { h.toBase.keep hb hl hsz hc with live := ?_, fresh := ?_, done := ?_, cur := ?_,
                                           alt := ?_ }
  · rw [hb]; exact h.live
  · rw [hb, hsz, hc]; exact h.fresh
  · rw [hb, hsz, hc]; exact h.done
  · unfold CurOk
    rw [hb, hr, hsz, hc, hcu]
    exact h.cur
  · refine h.alt.imp (fun hX => hX.keep hb hsz hc) fun ⟨h1, h2⟩ => ⟨?_, by rw [hb]; exact h2⟩
    unfold AllNarrow
    rw [hc]; exact h1

theorem wsPlaceCursor_eq (x : WScr) (h : GoodSize x.buf.size) :
    wsPlaceCursor x = wsMoveCursor (target x.buf) x := by
  unfold wsPlaceCursor target
  have h1 : x.buf.cursor.isOutOfBounds x.buf.size = true ↔ ¬ InBounds x.buf.cursor x.buf.size := by
    unfold Cursor.isOutOfBounds InBounds
    simp only [Bool.or_eq_true, decide_eq_true_eq]
    omega
  have h2 : Cursor.last x.buf.size = some ⟨x.buf.size.lines - 1, x.buf.size.columns - 1⟩ := by
    unfold Cursor.last usub
    have := h.1; have := h.2.1
    rw [if_pos (by omega), if_pos (by omega)]
    rfl
  rw [sm_bind, sm_get]
  dsimp only
  by_cases hin : InBounds x.buf.cursor x.buf.size
  · rw [if_neg (fun e => h1.mp e hin), if_pos hin]
  · rw [if_pos (h1.mpr hin), if_neg hin, h2]
    rfl

theorem sgrows_placeCursor : SGrows wsPlaceCursor := by
  unfold wsPlaceCursor
  refine SGrows.bind .get fun s => ?_
  split
  · exact SGrows.bind (.ofPanics _) fun _ => sgrows_move _
  · exact sgrows_move _

theorem sgrows_refresh (u : UEnv) (wt : WTerm) : SGrows (wsRefresh u wt) := by
  unfold wsRefresh
  exact SGrows.bind (sgrows_clearIfNeeded _) fun _ => SGrows.bind (.onT (grows_setAttributes _ _))
    fun _ => SGrows.bind .get fun _ => SGrows.bind (sgrows_drawLoop _ _ _ _ _) fun _ =>
    SGrows.bind (.onT (grows_setAttributes _ _)) fun _ => sgrows_placeCursor

/-- The part of a refresh after the clearing. -/
theorem leads_rest (hu : SpaceOk u) {wt : WTerm} {X : Nat → Prop} {x : WScr} {c : Con} {t : Term}
    {o : OutBuf} (y1 : Sync u X 0 (gscr x) t) (r1 : Rep wt x c t o) (hk : x.clear = false) :
    Leads u k c x (do
        onT (winSetAttributes wt ⟨none, none, .empty⟩)
        let s ← SM.get
        wsDrawLoop u wt (s.buf.size.area + 1) (0, s.buf.size.area) ⟨none, none, .empty⟩
        onT (winSetAttributes wt ⟨none, none, .empty⟩)
        wsPlaceCursor) (fun _ c' x' => ∃ t' o',
      After u X (gscr x') t' ∧ Rep wt x' c' t' o' ∧
      x'.buf = { x.buf with back := x'.buf.back } ∧ (AllNarrow t → NoWide u x.buf → AllNarrow t') ∧
      (Shy u X (gscr x) t → Shy u X (gscr x') t') ∧ Unmarked u (gscr x) (gscr x')) := by
  refine Leads.bind (leads_setAttrs r1 _) (.onT (grows_setAttributes _ _))
    (fun _ => SGrows.bind .get fun _ => SGrows.bind (sgrows_drawLoop _ _ _ _ _) fun _ =>
    SGrows.bind (.onT (grows_setAttributes _ _)) fun _ => sgrows_placeCursor) ?_
  rintro _ c2 x2 ⟨o2, r2, d2, th2⟩
  have hb2 : x2.buf = x.buf := congrArg SData.buf d2
  have hk2 : x2.clear = x.clear := congrArg SData.clear d2
  have hr2 : x2.real = x.real := congrArg SData.real d2
  have y2 : Sync u X 0 (gscr x2) { t with attrs := view ⟨none, none, .empty⟩ } :=
    y1.keep hb2 hr2 (gw_lk r2.attrs) rfl rfl rfl
  refine Leads.get ?_
  have hlen : x2.buf.buffer.length = 0 + x2.buf.size.area := by
    rw [Nat.zero_add]; exact y2.grid.len
  have hpos : 0 < x2.buf.size.area := Nat.mul_pos y2.grid.size.1 y2.grid.size.2.1
  have loop := leads_drawLoop (k := k) hu x2.buf.size.area x2.buf.size.area (x2.buf.size.area + 1) 0
    x2 c2 _ o2 (Nat.le_refl _) (Nat.lt_succ_self _) hlen y2 r2
  rw [th2] at loop
  refine Leads.bind loop (sgrows_drawLoop _ _ _ _ _)
    (fun _ => SGrows.bind (.onT (grows_setAttributes _ _)) fun _ => sgrows_placeCursor) ?_
  rintro _ c3 x3 ⟨t3, o3, y3, r3, b3, k3, a3, v3, w3⟩
  rw [Nat.zero_add] at y3
  have hcur3 : CurOk (gscr x3) t3 := by
    rcases y3.cur with hc | ⟨h0, -⟩
    · exact hc
    · omega
  refine Leads.bind (leads_setAttrs r3 _) (.onT (grows_setAttributes _ _))
    (fun _ => sgrows_placeCursor) ?_
  rintro _ c4 x4 ⟨o4, r4, d4, th4⟩
  have hb4 : x4.buf = x3.buf := congrArg SData.buf d4
  have hk4 : x4.clear = x3.clear := congrArg SData.clear d4
  have hr4 : x4.real = x3.real := congrArg SData.real d4
  have y4 : Sync u X x2.buf.size.area (gscr x4) { t3 with attrs := view ⟨none, none, .empty⟩ } :=
    y3.keep hb4 hr4 (gw_lk r4.attrs) rfl rfl rfl
  have hz4 : x4.buf.size = t3.size := y4.size.symm
  have hg4 : GoodSize x4.buf.size := y4.grid.size
  have htin : InBounds (target x4.buf) t3.size := by rw [← hz4]; exact target_in hg4
  have hclear4 : x4.clear = false := by rw [hk4, k3, hk2, hk]
  refine Leads.congr ?_ (wsPlaceCursor_eq x4 hg4)
  -- the cursor movement, also when the cursor is in the right half of a character
  have hend : Leads u k c4 x4 (wsMoveCursor (target x4.buf)) (fun _ c' x' => ∃ t' o', Rep wt x' c' t' o' ∧
      x'.toSData = { x4.toSData with real := target x4.buf } ∧ x'.w.theme = x4.w.theme ∧
      t'.cell = t3.cell ∧ t'.size = t3.size ∧ t'.Paired ∧ CurOk (gscr x') t' ∧
      (t3.cell (target x4.buf) ≠ .right → t'.cur = some (target x4.buf))) := by
    by_cases hre : x4.real = target x4.buf
    · refine Leads.congr (m' := pure ()) (Leads.pure ⟨_, o4, r4, by rw [← hre], rfl, rfl, rfl, ?_, ?_, ?_⟩) ?_
      · exact y4.paired
      · have : CurOk (gscr x4) { t3 with attrs := view ⟨none, none, .empty⟩ } := by
          unfold CurOk at hcur3 ⊢
          have e : (gscr x4).real = (gscr x3).real := hr4
          rw [e]; exact hcur3
        exact this
      · intro hn
        have e : (gscr x3).real = target x4.buf := hr4.symm.trans hre
        rcases hcur3 (by rw [e]; exact htin) with e' | e'
        · show t3.cur = _
          rw [e', e]
        · rw [e] at e'; exact absurd e' hn
      · unfold wsMoveCursor
        rw [sm_bind, sm_get]
        dsimp only
        rw [if_neg (by simpa using hre)]
    · refine (leads_move r4 htin (fun e => absurd e hre)).mono ?_
      rintro _ c' x' ⟨t', o', q1, q2, q3, q4, q5⟩
      have hcz : t'.cell = t3.cell ∧ t'.size = t3.size := by
        rcases q4 with rfl | rfl <;> exact ⟨rfl, rfl⟩
      refine ⟨t', o', q1, q2, q3, hcz.1, hcz.2, ?_, ?_, fun _ => q5⟩
      · have := y4.paired
        unfold Term.Paired at this ⊢
        rw [hcz.1, hcz.2]; exact this
      · intro _
        left
        have : (gscr x').real = target x4.buf := by have h' := congrArg SData.real q2; exact h'
        rw [this]; exact q5
  refine hend.mono ?_
  rintro _ c5 x5 ⟨t5, o5, r5, d5, th5, cl5, z5, p5, cu5, at5⟩
  have hb5 : x5.buf = x3.buf := by
    have h' := congrArg SData.buf d5
    exact h'.trans hb4
  have hk5 : x5.clear = false := by
    have h' := congrArg SData.clear d5
    exact h'.trans hclear4
  have hre5 : x5.real = target x5.buf := by
    have h' := congrArg SData.real d5
    rw [hb5, ← hb4]; exact h'
  have hbase : Base u X (gscr x5) t5 := y3.toBase.keep hb5 (gw_lk r5.attrs) z5 cl5
  have hbuf : x5.buf = { x.buf with back := x5.buf.back } := by rw [hb5, b3, hb2]
  have hlt : ∀ j cl, x3.buf.buffer[j]? = some cl → j < x2.buf.size.area := by
    intro j cl hj
    have := (List.getElem?_eq_some_iff.mp hj).1
    rw [b3] at this
    dsimp only at this
    omega
  refine ⟨t5, o5, { hbase with cur := fun _ => cu5, inval := ?_, noClear := hk5, shown := ?_,
                               synced := ?_, real := hre5, atTarget := ?_, plain := ?_ }, r5, hbuf, ?_,
                               fun hX => (v3 (hX.keep hb2 rfl rfl)).keep hb5 z5 cl5,
                               fun j hj => ?_⟩
  · have : (gscr x5).clear = false := hk5
    rw [this]; intro e; cases e
  · intro j cl hl hx hj
    rw [cl5, z5]
    have hbe : (gscr x5).buf = (gscr x3).buf := hb5
    rw [hbe] at hl hj
    exact (y3.done j cl (hlt j cl hj) hl hj).2 hx
  · intro j cl hl hj
    have hbe : (gscr x5).buf = (gscr x3).buf := hb5
    rw [hbe] at hl hj ⊢
    exact (y3.done j cl (hlt j cl hj) hl hj).1
  · have hbe : (gscr x5).buf = x4.buf := hb5.trans hb4.symm
    rw [hbe, cl5]
    exact at5
  · show (gw x5.w.theme).theme = _
    rw [gw_theme, th5, th4]
    rfl
  · intro ha hnw q
    rw [cl5]
    refine a3 (fun q => ha q) ?_ q
    unfold NoWide
    rw [hb2]
    exact hnw
  · show x5.buf.back[j]? = x.buf.back[j]?
    have h2 : (gscr x2).buf = (gscr x).buf := hb2
    have := w3 j (by rw [h2]; exact hj)
    rw [hb5, ← hb2]
    exact this

theorem leads_refresh_full (hu : SpaceOk u) {wt : WTerm} {X : Nat → Prop} {x : WScr} {c : Con} {t : Term}
    {o : OutBuf} (h : Held u X (gscr x) t) (hst : NoStale u X (gscr x) t)
    (halt : Shy u X (gscr x) t ∨ ((x.clear = true ∨ AllNarrow t) ∧ NoWide u x.buf)) (hr : Rep wt x c t o) :
    Leads u k c x (wsRefresh u wt) (fun _ c' x' => ∃ t' o',
      After u X (gscr x') t' ∧ Rep wt x' c' t' o' ∧
      x'.buf = { x.buf with back := x'.buf.back } ∧
      ((x.clear = true ∨ AllNarrow t) → NoWide u x.buf → AllNarrow t') ∧
      (Shy u X (gscr x) t → Shy u X (gscr x') t') ∧ Unmarked u (gscr x) (gscr x')) := by
  have hsp : u.w ' ' = 1 := by simp [UEnv.w, hu.width]
  unfold wsRefresh winClearAttributes
  refine Leads.bind (leads_clearIfNeeded hsp h hst halt hr) (sgrows_clearIfNeeded _) (fun _ =>
    SGrows.bind (.onT (grows_setAttributes _ _))
    fun _ => SGrows.bind .get fun _ => SGrows.bind (sgrows_drawLoop _ _ _ _ _) fun _ =>
    SGrows.bind (.onT (grows_setAttributes _ _)) fun _ => sgrows_placeCursor) ?_
  rintro _ c1 x1 ⟨t1, o1, y1, r1, b1, k1, a1, v1⟩
  refine (leads_rest hu y1 r1 k1).mono ?_
  rintro _ c2 x2 ⟨t2, o2, h1, h2, h3, h4, h5, h6⟩
  refine ⟨t2, o2, h1, h2, by rw [h3, b1], fun ha hn => h4 (a1 ha) (by rw [b1]; exact hn),
    fun hX => h5 (v1 hX), ?_⟩
  have e : (gscr x1).buf = (gscr x).buf := b1
  exact (unmarked_same e).trans h6 (by rw [e])

theorem leads_refresh (hu : SpaceOk u) {wt : WTerm} {X : Nat → Prop} {x : WScr} {c : Con} {t : Term}
    {o : OutBuf} (h : Held u X (gscr x) t) (hst : NoStale u X (gscr x) t)
    (halt : (∀ j, ¬ X j) ∨ ((x.clear = true ∨ AllNarrow t) ∧ NoWide u x.buf)) (hr : Rep wt x c t o) :
    Leads u k c x (wsRefresh u wt) (fun _ c' x' => ∃ t' o',
      After u X (gscr x') t' ∧ Rep wt x' c' t' o' ∧
      x'.buf = { x.buf with back := x'.buf.back } ∧
      ((x.clear = true ∨ AllNarrow t) → NoWide u x.buf → AllNarrow t')) := by
  refine (leads_refresh_full hu h hst (halt.imp (fun hX => shy_none hX _ t) id) hr).mono ?_
  rintro _ c' x' ⟨t', o', q1, q2, q3, q4, -⟩
  exact ⟨t', o', q1, q2, q3, q4⟩

end Mortal
