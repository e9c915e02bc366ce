import Verif.Lemmas.WinShowRun
import Verif.Lemmas.WinCheck
import Verif.Spec.WinFail

/-! # Refreshes that fail on a Windows console -/

namespace Mortal
open Spec

variable {u : UEnv} {k : Nat} {wt : WTerm}

/-! ## Code of a screen that fails -/

/-- Code that only adds to the record when it fails. -/
def SGrowsE {α : Type} (m : SWM α) : Prop :=
  ∀ x e x', m x = .err e x' → ∃ D, x'.w.log = x.w.log ++ D

/-- What code does to a console and a screen if it fails after mild calls. -/
def Breaks {α : Type} (u : UEnv) (k : Nat) (c : Con) (x : WScr) (m : SWM α)
    (E : Con → WScr → Prop) : Prop :=
  ∀ e x' D, m x = .err e x' → x'.w.log = x.w.log ++ D → c.Runs u k D → (∀ ev ∈ D, MildCall ev) →
    ∃ c', c.play u k D = some c' ∧ E c' x'

theorem SGrowsE.bind {α β : Type} {m : SWM α} {f : α → SWM β} (h : SGrows m) (he : SGrowsE m)
    (hf : ∀ a, SGrowsE (f a)) : SGrowsE (m >>= f) := by
  intro x b x' e
  rcases sm_bind_err e with e | ⟨a, x1, e1, e2⟩
  · exact he _ _ _ e
  · obtain ⟨D, h1⟩ := h _ _ _ e1
    obtain ⟨D', h2⟩ := hf _ _ _ _ e2
    exact ⟨D ++ D', by rw [h2, h1, List.append_assoc]⟩

theorem SGrowsE.pure {α : Type} (a : α) : SGrowsE (pure a : SWM α) := by
  intro x b x' e; cases e

theorem SGrowsE.get : SGrowsE (SM.get : SWM WScr) := by
  intro x b x' e; cases e

theorem SGrowsE.modify {f : WScr → WScr} : SGrowsE (SM.modify f) := by
  intro x b x' e; cases e

theorem SGrowsE.ofPanics {α : Type} (y : Panics α) : SGrowsE (SM.ofPanics y : SWM α) := by
  intro x b x' e
  cases y <;> cases e

theorem SGrowsE.halt {α : Type} (w : Stop) : SGrowsE (SM.halt w : SWM α) := by
  intro x b x' e; cases e

theorem SGrowsE.onT {α : Type} {m : WM α} (h : Grows m) : SGrowsE (onT m) := by
  intro x b x' e
  exact (h x.w).2 b x'.w (onT_err e).1

theorem sgrowsE_move (p : Cursor) : SGrowsE (wsMoveCursor p) := by
  unfold wsMoveCursor
  refine SGrowsE.bind .get .get fun _ => ?_
  split
  · exact SGrowsE.bind (.onT (grows_moveAbs _)) (.onT (grows_moveAbs _)) fun _ => .modify
  · exact SGrowsE.pure _

theorem sgrowsE_apply (wt : WTerm) (a b : Theme) : SGrowsE (applyAttrs wt a b) := by
  unfold applyAttrs
  split
  · exact .onT (grows_setAttributes _ _)
  · exact SGrowsE.pure _

theorem sgrowsE_tail (r : Unit → SWM Unit) (hr : ∀ a, SGrowsE (r a)) (s : List Char) :
    SGrowsE (onT (winWriteStr s) >>= r) :=
  SGrowsE.bind (.onT (grows_writeStr _)) (.onT (grows_writeStr _)) hr

theorem sgrowsE_drawCell (wt : WTerm) (src : Theme) (p : Cursor) (c : Cell) :
    SGrowsE (wsDrawCell wt src p c) := by
  unfold wsDrawCell
  exact SGrowsE.bind (sgrows_move _) (sgrowsE_move _) fun _ => SGrowsE.bind (sgrows_apply _ _ _)
    (sgrowsE_apply _ _ _) fun _ => SGrowsE.bind (.onT (grows_writeStr _)) (.onT (grows_writeStr _))
    fun _ => SGrowsE.bind .get .get fun _ => SGrowsE.bind (.ofPanics _) (.ofPanics _) fun _ => .modify

theorem sgrowsE_drawLoop (u : UEnv) (wt : WTerm) : ∀ (f : Nat) (r : Nat × Nat) (src : Theme),
    SGrowsE (wsDrawLoop u wt f r src)
  | 0, _, _ => SGrowsE.halt _
  | f + 1, (idx, n), src => by
    unfold wsDrawLoop
    refine SGrowsE.bind .get .get fun _ => SGrowsE.bind (.ofPanics _) (.ofPanics _) fun r =>
      SGrowsE.bind (.modify fun _ => rfl) .modify fun _ => ?_
    rcases r with ⟨b, rest, found⟩
    dsimp only
    cases found with
    | none => exact SGrowsE.pure _
    | some v => exact SGrowsE.bind (sgrows_drawCell _ _ _ _) (sgrowsE_drawCell _ _ _ _) fun _ =>
        sgrowsE_drawLoop u wt f _ _

theorem sgrowsE_placeCursor : SGrowsE wsPlaceCursor := by
  unfold wsPlaceCursor
  refine SGrowsE.bind .get .get fun s => ?_
  split
  · exact SGrowsE.bind (.ofPanics _) (.ofPanics _) fun _ => sgrowsE_move _
  · exact sgrowsE_move _

theorem Breaks.mono {α : Type} {c : Con} {x : WScr} {m : SWM α} {E E' : Con → WScr → Prop}
    (h : Breaks u k c x m E) (he : ∀ c' x', E c' x' → E' c' x') : Breaks u k c x m E' := by
  intro e x' D h1 h2 h3 h4
  obtain ⟨c', p, q⟩ := h e x' D h1 h2 h3 h4
  exact ⟨c', p, he _ _ q⟩

theorem Breaks.bind {α β : Type} {c : Con} {x : WScr} {m : SWM α} {f : α → SWM β}
    {R : α → Con → WScr → Prop} {E : Con → WScr → Prop} (hb : Breaks u k c x m E)
    (h : Leads u k c x m R) (hg : SGrows m) (hg' : ∀ a, SGrowsE (f a))
    (hf : ∀ a c' x', R a c' x' → Breaks u k c' x' (f a) E) : Breaks u k c x (m >>= f) E := by
  intro er x' D e hl hr hm
  rcases sm_bind_err e with e | ⟨a, x1, e1, e2⟩
  · exact hb er x' D e hl hr hm
  · obtain ⟨D1, l1⟩ := hg _ _ _ e1
    obtain ⟨D2, l2⟩ := hg' _ _ _ _ e2
    have hD : D = D1 ++ D2 := by
      rw [l2, l1, List.append_assoc] at hl
      exact (List.append_cancel_left hl).symm
    subst hD
    obtain ⟨r1, r2⟩ := con_runs_append hr
    obtain ⟨c1, p1, q1⟩ := h a x1 D1 e1 l1 r1
    obtain ⟨c2, p2, q2⟩ := hf a c1 x1 q1 er x' D2 e2 l2 (r2 c1 p1)
      (fun ev hev => hm ev (List.mem_append_right _ hev))
    exact ⟨c2, by rw [con_play_append, p1]; exact p2, q2⟩

theorem Breaks.pure {α : Type} {c : Con} {x : WScr} {a : α} {E : Con → WScr → Prop} :
    Breaks u k c x (pure a) E := by
  intro e x' D h; cases h

theorem Breaks.modify {c : Con} {x : WScr} {f : WScr → WScr} {E : Con → WScr → Prop} :
    Breaks u k c x (SM.modify f) E := by
  intro e x' D h; cases h

theorem Breaks.get {α : Type} {c : Con} {x : WScr} {f : WScr → SWM α} {E : Con → WScr → Prop}
    (h : Breaks u k c x (f x) E) : Breaks u k c x (SM.get >>= f) E := h

theorem Breaks.modifyBind {α : Type} {c : Con} {x : WScr} {f : WScr → WScr} {g : Unit → SWM α}
    (hf : (f x).w.log = x.w.log) {E : Con → WScr → Prop}
    (h : Breaks u k c (f x) (g ()) E) : Breaks u k c x (SM.modify f >>= g) E := by
  intro b x' D e hl hr
  exact h b x' D e (by rw [hf]; exact hl) hr

theorem Breaks.panics {α β : Type} {c : Con} {x : WScr} {y : Panics β} {g : β → SWM α}
    {E : Con → WScr → Prop} (h : ∀ b, y = some b → Breaks u k c x (g b) E) :
    Breaks u k c x (SM.ofPanics y >>= g) E := by
  cases y with
  | none => intro b x' D e; cases e
  | some b => exact h b rfl

theorem Breaks.congr {α : Type} {c : Con} {x : WScr} {m m' : SWM α} {E : Con → WScr → Prop}
    (h : Breaks u k c x m' E) (e : m x = m' x) : Breaks u k c x m E := by
  intro a x' D e' hl hr
  exact h a x' D (e ▸ e') hl hr

theorem Breaks.onT {α : Type} {c : Con} {x : WScr} {P : Con → WinSt → Prop} {m : WM α}
    {Q : α → Con → WinSt → Prop} {E : IoErr → Con → WinSt → Prop} (h : Does u k P m Q E)
    (hp : P c x.w) :
    Breaks u k c x (onT m) (fun c' x' => (∃ e, E e c' x'.w) ∧ x'.toSData = x.toSData) := by
  intro e x' D he hl hr _
  obtain ⟨e1, e2⟩ := onT_err he
  obtain ⟨c', h1, h2⟩ := h.err x.w c hp e x'.w D e1 hl hr
  exact ⟨c', h1, ⟨e, h2⟩, e2⟩

/-! ## The calls -/

theorem boolCall_err {call : ConCall} {s s' : WinSt} {e : IoErr} (h : boolCall call s = .err e s') :
    ∃ evs, s'.log = s.log ++ evs ++ [.call call .fail] := by
  unfold boolCall at h
  rcases sm_bind_err h with h | ⟨a, s1, h1, h2⟩
  · exact absurd h conCall_not_err
  · obtain ⟨evs, -, g, -⟩ := conCall_ok h1
    cases a <;> cases h2
    exact ⟨evs, g⟩

/-- Attributes are only refused by a call that is not mild. -/
theorem setAttributes_err {th : Theme} {s s' : WinSt} {e : IoErr} {D : List WEv}
    (h : winSetAttributes wt th s = .err e s') (hl : s'.log = s.log ++ D) :
    ∃ h w, WEv.call (.setAttr h w) .fail ∈ D := by
  unfold winSetAttributes updateAttrs at h
  rw [sm_bind, sm_get] at h
  dsimp only at h
  split at h
  · rw [sm_bind, sm_modify] at h
    dsimp only at h
    rw [sm_bind, sm_get] at h
    dsimp only at h
    obtain ⟨evs, g⟩ := boolCall_err h
    dsimp only at g
    rw [hl, List.append_assoc] at g
    rw [List.append_cancel_left g]
    exact ⟨_, _, List.mem_append_right _ (List.mem_cons_self ..)⟩
  · cases h

theorem breaks_setAttrs {c : Con} {x : WScr} (th : Theme) {E : Con → WScr → Prop} :
    Breaks u k c x (onT (winSetAttributes wt th)) E := by
  intro e x' D h hl _ hm
  obtain ⟨h1, -⟩ := onT_err h
  obtain ⟨h, w, hmem⟩ := setAttributes_err h1 hl
  exact absurd rfl (hm _ hmem)

theorem breaks_apply {c : Con} {x : WScr} (a b : Theme) {E : Con → WScr → Prop} :
    Breaks u k c x (applyAttrs wt a b) E := by
  unfold applyAttrs
  split
  · exact breaks_setAttrs _
  · exact Breaks.pure

/-- Nothing but what can happen at any time. -/
def Still (c : Con) (x : WScr) (c' : Con) (x' : WScr) : Prop :=
  CAt c x.w c' x'.w ∧ x'.toSData = x.toSData

theorem Still.rep {c c' : Con} {x x' : WScr} {t : Term} {o : OutBuf} (h : Still c x c' x')
    (hr : Rep wt x c t o) : Rep wt x' c' t o := by
  obtain ⟨⟨⟨q, rfl⟩, h2⟩, h3⟩ := h
  have hc : x'.clear = x.clear := congrArg SData.clear h3
  refine ⟨by rw [h2.outH]; exact hr.out, by rw [h2.outH]; exact hr.active,
    by rw [h2.theme]; exact hr.attrs, hr.small, by rw [hc]; exact hr.full, ?_⟩
  rw [h2.theme, hc]; exact hr.rel

theorem Still.gscr {c c' : Con} {x x' : WScr} (h : Still c x c' x') : gscr x' = gscr x := by
  unfold Mortal.gscr
  rw [h.2, h.1.2.theme]

theorem breaks_move {x : WScr} {c : Con} {t : Term} {o : OutBuf} (h : Rep wt x c t o) {p : Cursor}
    (hp : InBounds p t.size) : Breaks u k c x (wsMoveCursor p) (Still c x) := by
  unfold wsMoveCursor
  refine Breaks.get ?_
  split
  · have hz : o.glyph.size = t.size := by rw [h.rel.glyph]; rfl
    have hd := does_moveCursor (u := u) (k := k) c x.w p o h.out (by rw [hz]; exact h.small)
      (by rw [hz]; exact hp)
    refine Breaks.bind ((Breaks.onT hd (CAt.refl _ _)).mono ?_) (Leads.onT hd (CAt.refl _ _))
      (SGrows.onT (grows_moveAbs _)) (fun _ => SGrowsE.modify) (fun _ _ _ _ => Breaks.modify)
    rintro c' x' ⟨⟨_, h1⟩, h2⟩
    exact ⟨h1, h2⟩
  · exact Breaks.pure

/-- Calls that write nothing. -/
def MuteCall (h : Nat) (ev : WEv) : Prop :=
  IsHap ev ∨ ∃ us, ev = .call (.write h us) .fail ∨ ev = .call (.write h us) (.wrote 0)

theorem toDword_small {n : Nat} (h : min (toDword n).toNat n < 0xFFFFFFFF) : n ≤ (toDword n).toNat := by
  unfold toDword at h ⊢
  split at h
  · have : (4294967295#32).toNat = 4294967295 := by decide
    rw [this] at h
    omega
  · rename_i hn
    rw [if_neg hn, BitVec.toNat_ofNat]
    omega

theorem writeLoop_mute (h : Nat) : ∀ (f : Nat) (buf : List (BitVec 16)) (s s' : WinSt) (e : IoErr)
    (D : List WEv), writeLoop h f buf s = .err e s' → s'.log = s.log ++ D →
    (∀ ev ∈ D, MildCall ev) → (∀ ev ∈ D, MuteCall h ev) ∧ SameTerm s s'
  | 0, buf, s, s', e, D, he, hl, hm => by
    unfold writeLoop at he
    split at he <;> cases he
  | f + 1, buf, s, s', e, D, he, hl, hm => by
    unfold writeLoop at he
    split at he
    · rename_i hb
      rcases sm_bind_err he with he | ⟨a, s1, h1, h2⟩
      · exact absurd he conCall_not_err
      obtain ⟨evs, g1, g2, g3, -⟩ := conCall_ok h1
      have hevs : ∀ ev ∈ evs, MuteCall h ev := fun ev hev => Or.inl (g1 ev hev)
      cases a with
      | fail =>
        cases h2
        rw [hl, List.append_assoc] at g2
        rw [List.append_cancel_left g2]
        refine ⟨fun ev hev => ?_, g3⟩
        rcases List.mem_append.mp hev with hev | hev
        · exact hevs ev hev
        · rw [List.mem_singleton] at hev
          exact Or.inr ⟨_, Or.inl hev⟩
      | wrote n =>
        dsimp only at h2
        obtain ⟨D2, l2⟩ := (grows_writeLoop h f (buf.drop n) s1).2 e s' h2
        have hD : D = evs ++ [.call (.write h (buf.take (toDword buf.length).toNat)) (.wrote n)] ++ D2 := by
          rw [l2, g2] at hl
          simp only [List.append_assoc] at hl ⊢
          exact (List.append_cancel_left hl).symm
        subst hD
        have hmild : MildCall (.call (.write h (buf.take (toDword buf.length).toNat)) (.wrote n)) :=
          hm _ (by simp)
        have hn : n = 0 := by
          rcases hmild with ⟨e1, e2⟩ | e1
          · exfalso
            rw [List.length_take] at e1 e2
            have := toDword_small e2
            have hd : buf.drop n = [] := by rw [List.drop_eq_nil_iff]; omega
            rw [hd] at h2
            cases f <;> cases h2
          · exact e1
        subst hn
        obtain ⟨i1, i2⟩ := writeLoop_mute h f _ s1 s' e D2 h2 l2
          (fun ev hev => hm ev (List.mem_append_right _ hev))
        refine ⟨fun ev hev => ?_, g3.trans i2⟩
        rcases List.mem_append.mp hev with hev | hev
        · rcases List.mem_append.mp hev with hev | hev
          · exact hevs ev hev
          · rw [List.mem_singleton] at hev
            exact Or.inr ⟨_, Or.inr hev⟩
        · exact i1 ev hev
      | _ => cases h2
    · cases he

theorem muteCall_play {h : Nat} {o : OutBuf} (hp : o.pend = []) : ∀ (D : List WEv) (c : Con),
    c.outs h = some o → (∀ ev ∈ D, MuteCall h ev) → ∃ q, c.play u k D = some { c with queue := q }
  | [], c, _, _ => ⟨c.queue, rfl⟩
  | ev :: D, c, ho, hm => by
    have hev := hm ev (List.mem_cons_self ..)
    obtain ⟨q, hq⟩ : ∃ q, c.step u k ev = some { c with queue := q } := by
      rcases hev with hev | ⟨us, rfl | rfl⟩
      · obtain ⟨q, hq⟩ := haps_play u k (l := [ev]) (by simpa using hev) c
        exact ⟨q, by rw [con_play_one] at hq; exact hq⟩
      · exact ⟨c.queue, rfl⟩
      · refine ⟨c.queue, ?_⟩
        simp only [Con.step]
        have hf : o.feed u (us.take 0) = some o := by
          unfold OutBuf.feed
          rw [List.take_zero, List.append_nil, hp, decode16_nil]
          show some ({ o with pend := [] } : OutBuf) = _
          rw [← hp]
        rw [onOut_some ho, hf]
        show some (c.setOut h o) = _
        rw [setOut_self ho]
    obtain ⟨q', hq'⟩ := muteCall_play hp D { c with queue := q } ho
      (fun ev' h' => hm ev' (List.mem_cons_of_mem _ h'))
    refine ⟨q', ?_⟩
    simp only [Con.play, hq, Option.bind_some]
    exact hq'

theorem breaks_write {x : WScr} {c : Con} {t : Term} {o : OutBuf} (h : Rep wt x c t o)
    (s : List Char) : Breaks u k c x (onT (winWriteStr s)) (Still c x) := by
  intro e x' D he hl hr hm
  obtain ⟨e1, e2⟩ := onT_err he
  unfold winWriteStr at e1
  rw [sm_bind, sm_get] at e1
  dsimp only at e1
  obtain ⟨g1, g2⟩ := writeLoop_mute _ _ _ _ _ _ _ e1 hl hm
  obtain ⟨q, hq⟩ := muteCall_play (u := u) (k := k) h.rel.pend D c h.out g1
  exact ⟨_, hq, ⟨⟨q, rfl⟩, g2⟩, e2⟩

/-- Drawing a cell fails. -/
theorem breaks_drawCell {x : WScr} {c : Con} {t : Term} {o : OutBuf}
    (h : Rep wt x c t o) {p : Cursor} (hp : InBounds p t.size) {cell : Cell}
    (hcur : x.real = p → t.cur = some p) :
    Breaks u k c x (wsDrawCell wt x.w.theme p cell) (fun c' x' => ∃ t' o', Rep wt x' c' t' o' ∧
      x'.buf = x.buf ∧ x'.clear = x.clear ∧ t'.cell = t.cell ∧ t'.size = t.size ∧
      ((x'.real = x.real ∧ t'.cur = t.cur) ∨ t'.cur = some x'.real)) := by
  unfold wsDrawCell
  have hge : ∀ c : Cell, SGrowsE (onT (winWriteStr c.text) >>= fun _ => SM.get >>= fun s =>
      SM.ofPanics (uadd s.real.column 1) >>= fun col =>
      SM.modify fun s : WScr => { s with real := { s.real with column := col } }) := fun c =>
    sgrowsE_tail _ (fun _ => SGrowsE.bind .get .get fun _ =>
      SGrowsE.bind (.ofPanics _) (.ofPanics _) fun _ => .modify) _
  refine Breaks.bind ((breaks_move h hp).mono ?_) (leads_move h hp hcur) (sgrows_move _)
    (fun _ => SGrowsE.bind (sgrows_apply _ _ _) (sgrowsE_apply _ _ _) fun _ => hge cell) ?_
  · intro c' x' hs
    exact ⟨t, o, hs.rep h, congrArg SData.buf hs.2, congrArg SData.clear hs.2, rfl, rfl,
      Or.inl ⟨congrArg SData.real hs.2, rfl⟩⟩
  rintro _ c1 x1 ⟨t1, o1, h1, d1, th1, hor, hc1⟩
  rw [← th1]
  refine Breaks.bind (breaks_apply _ _) (leads_applyAttrs h1 _) (sgrows_apply _ _ _)
    (fun _ => hge cell) ?_
  rintro _ c2 x2 ⟨o2, h2, d2, th2⟩
  have ht1 : t1.size = t.size ∧ t1.cell = t.cell := by rcases hor with rfl | rfl <;> exact ⟨rfl, rfl⟩
  intro e x' D he hl hr hm
  rcases sm_bind_err he with he | ⟨a, x3, -, e3⟩
  · obtain ⟨c', q1, hs⟩ := breaks_write (u := u) (k := k) h2 cell.text e x' D he hl hr hm
    have d3 : x'.toSData = { x.toSData with real := p } := hs.2.trans (d2.trans d1)
    refine ⟨c', q1, _, o2, hs.rep h2, by have h' := congrArg SData.buf d3; exact h',
      by have h' := congrArg SData.clear d3; exact h', ht1.2, ht1.1, Or.inr ?_⟩
    have hr : x'.real = p := by have h' := congrArg SData.real d3; exact h'
    rw [hr]; exact hc1
  · exfalso
    rw [sm_bind, sm_get] at e3
    dsimp only at e3
    cases hu : uadd x3.real.column 1 with
    | none => rw [hu] at e3; cases e3
    | some v => rw [hu] at e3; cases e3

/-- The loop fails. -/
theorem breaks_drawLoop (hu : SpaceOk u) {X : Nat → Prop} :
    ∀ (m n f idx : Nat) (x : WScr) (c : Con) (t : Term) (o : OutBuf), n ≤ m → n < f →
      x.buf.buffer.length = idx + n → Sync u X idx (gscr x) t → Rep wt x c t o →
    Breaks u k c x (wsDrawLoop u wt f (idx, n) x.w.theme) (fun c' x' => x'.clear = x.clear ∧
      (CurOk (gscr x) t → ∃ i t' o', Base u (fun j => X j ∨ j = i) (gscr x') t' ∧
        CurOk (gscr x') t' ∧ Rep wt x' c' t' o' ∧
        x'.buf = { x.buf with back := x'.buf.back } ∧
        (AllNarrow t → NoWide u x.buf → AllNarrow t'))) := by
  intro m
  have done : ∀ (f idx : Nat) (x : WScr) (c : Con) (E : Con → WScr → Prop),
      Breaks u k c x (wsDrawLoop u wt (f + 1) (idx, 0) x.w.theme) E := by
    intro f idx x c E
    unfold wsDrawLoop
    refine Breaks.get (Breaks.panics fun r hn => ?_)
    cases hn
    exact Breaks.modifyBind rfl Breaks.pure
  induction m with
  | zero =>
    intro n f idx x c t o hm hf hlen h hr
    obtain rfl : n = 0 := by omega
    obtain ⟨f, rfl⟩ : ∃ g, f = g + 1 := ⟨f - 1, by omega⟩
    exact done f idx x c _
  | succ m ih =>
    intro n f idx x c t o hm hf hlen h hr
    obtain ⟨f, rfl⟩ : ∃ g, f = g + 1 := ⟨f - 1, by omega⟩
    cases n with
    | zero => exact done f idx x c _
    | succ n =>
      have hlt : idx < x.buf.buffer.length := by omega
      have hb : x.buf.buffer[idx]? = some x.buf.buffer[idx] := List.getElem?_eq_getElem hlt
      have hlt' : idx < x.buf.back.length := by
        have h1 := h.grid.backLen
        have h2 := h.grid.len
        have h1 : x.buf.back.length = _ := h1
        have h2 : x.buf.buffer.length = _ := h2
        omega
      have hk : x.buf.back[idx]? = some x.buf.back[idx] := List.getElem?_eq_getElem hlt'
      generalize x.buf.buffer[idx] = cell at hb
      generalize x.buf.back[idx] = old at hk
      have hmem := List.mem_of_getElem? hb
      have hne : cell.text ≠ [] := h.grid.text cell hmem
      have hsk : skipOf u cell n ≤ n := by unfold skipOf; split <;> omega
      have hidx : idx + 1 + skipOf u cell n + (n - skipOf u cell n) = idx + (n + 1) := by omega
      by_cases hco : cell = old
      · subst hco
        have := ih (n - skipOf u cell n) (f + 1) (idx + 1 + skipOf u cell n) x c t o (by omega)
          (by omega) (by omega) (h.skip hu hlen hb hk) hr
        refine this.congr ?_
        unfold wsDrawLoop
        show (SM.ofPanics (x.buf.nextCell u (n + 1) idx) >>= _) x = (SM.ofPanics (x.buf.nextCell u
          (n - skipOf u cell n) (idx + 1 + skipOf u cell n)) >>= _) x
        rw [nextCell_same hb hne hk]
      · have hin : InBounds (posOf t.size idx) t.size := by
          rw [h.size]
          exact (inBounds_posOf h.grid.size).mpr (by rw [← h.grid.len]; exact hlt)
        have hfit : cell.isWide u = true → idx % t.size.columns + 1 < t.size.columns := by
          intro hw; rw [h.size]; exact (h.torn idx cell hb hw).1
        unfold wsDrawLoop
        refine Breaks.get (Breaks.panics fun r hn => ?_)
        rw [nextCell_draw hb hne hk hco (by have := h.grid.size.2.1; exact Nat.ne_of_gt this),
          Option.some.injEq] at hn
        subst hn
        refine Breaks.modifyBind rfl ?_
        dsimp only
        have hz : x.buf.size = t.size := h.size.symm
        have hp : posOf x.buf.size idx = posOf t.size idx := by rw [hz]
        rw [hp]
        have hrep : Rep wt { x with buf := { x.buf with back := x.buf.back.set idx cell } } c t o :=
          ⟨hr.out, hr.active, hr.attrs, hr.small, hr.full, hr.rel⟩
        refine Breaks.bind ((breaks_drawCell
          (x := { x with buf := { x.buf with back := x.buf.back.set idx cell } })
          hrep hin (h.cur_at hu hlt)).mono ?_) (leads_drawCell
          (x := { x with buf := { x.buf with back := x.buf.back.set idx cell } })
          hrep hin (h.good cell hmem) hfit h.paired (h.cur_at hu hlt)) (sgrows_drawCell _ _ _ _)
          (fun _ => sgrowsE_drawLoop _ _ _ _ _) ?_
        · rintro c1 x1 ⟨t1, o1, r1, b1, k1, cl1, z1, cu1⟩
          have b1 : x1.buf = { x.buf with back := x.buf.back.set idx cell } := b1
          refine ⟨k1, fun hc => ⟨idx, t1, o1, ?_, ?_, r1, by rw [b1], fun ha _ q => ?_⟩⟩
          · have hback := mark_back h.toBase hlt cell
            have hpair : t1.Paired := by
              have := h.paired
              unfold Term.Paired at this ⊢
              rw [cl1, z1]; exact this
            refine base_mark h.toBase (i := idx) (c := cell) b1 z1 hpair (gw_lk r1.attrs) _
              fun j c' hj hne hx => ?_
            rw [hback, if_neg (fun e => hx (Or.inr e))] at hj
            rw [cl1, z1]
            exact h.bk j c' hj hne (fun e => hx (Or.inl e))
          · rcases cu1 with ⟨e1, e2⟩ | e1
            · unfold CurOk at hc ⊢
              have e1 : (gscr x1).real = (gscr x).real := e1
              rw [e1, e2, cl1, z1]; exact hc
            · intro _
              exact Or.inl e1
          · rw [cl1]; exact ha q
        rintro _ c1 x1 ⟨t1, o1, r1, th1, z1, p1, cl1, d1, cu1⟩
        have hb1 : x1.buf = { x.buf with back := x.buf.back.set idx cell } := by
          have h' := congrArg SData.buf d1; exact h'
        have hc1 : x1.clear = x.clear := by have h' := congrArg SData.clear d1; exact h'
        have hr1 : x1.real = ⟨(posOf t.size idx).line, (posOf t.size idx).column + 1⟩ := by
          have h' := congrArg SData.real d1; exact h'
        have hsync : Sync u X (idx + 1 + skipOf u cell n) (gscr x1) t1 :=
          h.drawn hu hlen hb (fun e => hco (Option.some.inj (e.symm.trans hk))) (gw_lk r1.attrs) z1 p1
            cl1 hr1 cu1 hb1
        have hbe : x1.buf.buffer = x.buf.buffer := by rw [hb1]
        have := ih (n - skipOf u cell n) f (idx + 1 + skipOf u cell n) x1 c1 t1 o1 (by omega)
          (by omega) (by rw [hbe]; omega) hsync r1
        rw [th1] at this
        refine this.mono ?_
        rintro c2 x2 ⟨k2, rest⟩
        refine ⟨k2.trans hc1, fun _ => ?_⟩
        have hcur1 : CurOk (gscr x1) t1 := by
          rcases hsync.cur with hc | ⟨h0, -⟩
          · exact hc
          · omega
        obtain ⟨i, t2, o2, q1, q2, q3, q4, q5⟩ := rest hcur1
        refine ⟨i, t2, o2, q1, q2, q3, by rw [q4, hb1], fun ha hnw => ?_⟩
        refine q5 (allNarrow_drawn ha (hnw cell hmem) cl1) ?_
        unfold NoWide
        rw [hbe]; exact hnw

/-- Clearing the screen fails. -/
theorem breaks_clearIfNeeded (hsp : u.w ' ' = 1) {X : Nat → Prop} {x : WScr} {c : Con} {t : Term}
    {o : OutBuf} (h : Held u X (gscr x) t) (hr : Rep wt x c t o) :
    Breaks u k c x (wsClearIfNeeded wt) (fun c' x' => x.clear = true ∧ ∃ t' o',
      Held u X (gscr x') t' ∧ Rep wt x' c' t' o' ∧ x'.toSData = x.toSData) := by
  unfold wsClearIfNeeded SM.when
  refine Breaks.get ?_
  cases hc : x.clear with
  | false =>
    rw [if_neg (by simp)]
    exact Breaks.pure
  | true =>
    rw [if_pos rfl]
    have hz : o.glyph.size = t.size := by rw [hr.rel.glyph]; rfl
    have hd := does_clearScreen (u := u) (k := k) hsp c x.w wt o hr.out (by rw [hz]; exact hr.small)
      (hr.full hc)
    refine Breaks.bind ((Breaks.onT hd (CAt.refl _ _)).mono ?_) (Leads.onT hd (CAt.refl _ _))
      (SGrows.onT (grows_clearScreen _)) (fun _ => SGrowsE.modify) (fun _ _ _ _ => Breaks.modify)
    rintro c' x' ⟨⟨_, o1, ⟨w1, w2, w3, w4⟩, h1⟩, h2⟩
    obtain ⟨l1, l2, l3, l4⟩ := land h1 rfl
    have hc' : x'.clear = x.clear := congrArg SData.clear h2
    have hb' : x'.buf = x.buf := congrArg SData.buf h2
    have hinv : ∀ cl ∈ (gscr x').buf.back, cl.text = [] := by
      intro cl hcl
      have hcl : cl ∈ x'.buf.back := hcl
      rw [hb'] at hcl
      exact h.inval hc cl hcl
    have hend : ∀ t' : Term, t'.size = t.size → t'.attrs = t.attrs → t'.Paired →
        o1.glyph = t'.bare → Held u X (gscr x') t' ∧ Rep wt x' c' t' o1 := by
      intro t' z' a' p' g'
      have ha : t'.attrs = view x'.w.theme := by rw [a', l4]; exact hr.attrs
      constructor
      · refine { grid := ?_, good := ?_, torn := ?_, size := ?_, l32 := ?_, c32 := ?_, paired := p',
                 lk := gw_lk ha, bk := ?_, cur := ?_, inval := fun _ => hinv }
        · show x'.buf.Inv; rw [hb']; exact h.grid
        · show ∀ cl ∈ x'.buf.buffer, _; rw [hb']; exact h.good
        · show NoTornIx u x'.buf.size.columns x'.buf.buffer; rw [hb']; exact h.torn
        · show t'.size = x'.buf.size; rw [hb', z']; exact h.size
        · show x'.buf.size.lines ≤ _; rw [hb']; exact h.l32
        · show x'.buf.size.columns ≤ _; rw [hb']; exact h.c32
        · intro j cl hj hne
          exact absurd (hinv cl (List.mem_of_getElem? hj)) hne
        · intro e
          have e : x'.clear = false := e
          rw [hc', hc] at e; cases e
      · refine ⟨l1, by rw [l2, l3]; exact hr.active, ha, by rw [z']; exact hr.small, fun _ => ?_,
          ⟨g', by rw [w2, l4]; exact hr.rel.word, by rw [w3]; exact hr.rel.pend, ?_, ?_⟩⟩
        · obtain ⟨f1, f2, f3⟩ := hr.full hc
          have hg : o1.glyph.size = o.glyph.size := by rw [g', hr.rel.glyph]; exact z'
          unfold FullWindow
          rw [w4, hg]
          exact ⟨f1, f2, f3⟩
        · rw [hc', hc]; intro e; cases e
        · rw [hc', hc]; intro e; cases e
    rcases w1 with w1 | w1
    · obtain ⟨e1, e2⟩ := hend t rfl rfl h.paired (by rw [w1]; exact hr.rel.glyph)
      exact ⟨rfl, t, o1, e1, e2, h2⟩
    · have hpair : Term.Paired { t with cell := fun _ => .narrow [' '] DevAttrs.plain } := by
        constructor
        · intro l c e; cases e
        · intro l c a d e; cases e
      obtain ⟨e1, e2⟩ := hend { t with cell := fun _ => .narrow [' '] DevAttrs.plain } rfl rfl hpair (by rw [w1, hr.rel.glyph]; rfl)
      exact ⟨rfl, _, o1, e1, e2, h2⟩

/-- The part of a refresh after the clearing fails. -/
theorem breaks_rest (hu : SpaceOk u) {X : Nat → Prop} {x : WScr} {c : Con} {t : Term}
    {o : OutBuf} (y1 : Sync u X 0 (gscr x) t) (r1 : Rep wt x c t o) (hk : x.clear = false) :
    Breaks u k c x (do
        onT (winSetAttributes wt ⟨none, none, .empty⟩)
        let s ← SM.get
        wsDrawLoop u wt (s.buf.size.area + 1) (0, s.buf.size.area) ⟨none, none, .empty⟩
        onT (winSetAttributes wt ⟨none, none, .empty⟩)
        wsPlaceCursor) (fun c' x' => x'.clear = false ∧ (CurOk (gscr x) t → ∃ i t' o',
      Held u (fun j => X j ∨ j = i) (gscr x') t' ∧ Rep wt x' c' t' o' ∧
      x'.buf = { x.buf with back := x'.buf.back } ∧
      (AllNarrow t → NoWide u x.buf → AllNarrow t'))) := by
  have gE : ∀ th, SGrowsE (onT (winSetAttributes wt th)) := fun th => .onT (grows_setAttributes _ _)
  have gS : ∀ th, SGrows (onT (winSetAttributes wt th)) := fun th => .onT (grows_setAttributes _ _)
  refine Breaks.bind (breaks_setAttrs _) (leads_setAttrs r1 _) (gS _)
    (fun _ => SGrowsE.bind .get .get fun _ => SGrowsE.bind (sgrows_drawLoop _ _ _ _ _)
    (sgrowsE_drawLoop _ _ _ _ _) fun _ => SGrowsE.bind (gS _) (gE _) fun _ => sgrowsE_placeCursor) ?_
  rintro _ c2 x2 ⟨o2, r2, d2, th2⟩
  have hb2 : x2.buf = x.buf := congrArg SData.buf d2
  have hk2 : x2.clear = x.clear := congrArg SData.clear d2
  have hr2 : x2.real = x.real := congrArg SData.real d2
  have y2 : Sync u X 0 (gscr x2) { t with attrs := view ⟨none, none, .empty⟩ } :=
    y1.keep hb2 hr2 (gw_lk r2.attrs) rfl rfl rfl
  refine Breaks.get ?_
  have hlen : x2.buf.buffer.length = 0 + x2.buf.size.area := by
    rw [Nat.zero_add]; exact y2.grid.len
  have hpos : 0 < x2.buf.size.area := Nat.mul_pos y2.grid.size.1 y2.grid.size.2.1
  have loop := leads_drawLoop (k := k) hu x2.buf.size.area x2.buf.size.area (x2.buf.size.area + 1) 0
    x2 c2 _ o2 (Nat.le_refl _) (Nat.lt_succ_self _) hlen y2 r2
  have brk := breaks_drawLoop (k := k) hu x2.buf.size.area x2.buf.size.area (x2.buf.size.area + 1) 0
    x2 c2 _ o2 (Nat.le_refl _) (Nat.lt_succ_self _) hlen y2 r2
  rw [th2] at loop brk
  refine Breaks.bind (brk.mono ?_) loop (sgrows_drawLoop _ _ _ _ _)
    (fun _ => SGrowsE.bind (gS _) (gE _) fun _ => sgrowsE_placeCursor) ?_
  · rintro c' x' ⟨q1, q2⟩
    have hc' : x'.clear = false := by rw [q1, hk2, hk]
    refine ⟨hc', fun hc => ?_⟩
    have hc2 : CurOk (gscr x2) { t with attrs := view ⟨none, none, .empty⟩ } := by
      unfold CurOk at hc ⊢
      have e : (gscr x2).real = (gscr x).real := hr2
      rw [e]; exact hc
    obtain ⟨i, t', o', s1, s2, s3, s4, s5⟩ := q2 hc2
    refine ⟨i, t', o', { s1 with cur := fun _ => s2, inval := ?_ }, s3, by rw [s4, hb2],
      fun ha hn => s5 (fun q => ha q) (by rw [hb2]; exact hn)⟩
    have : (gscr x').clear = false := hc'
    rw [this]; intro e; cases e
  rintro _ c3 x3 ⟨t3, o3, y3, r3, b3, k3, a3, -⟩
  rw [Nat.zero_add] at y3
  have hcur3 : CurOk (gscr x3) t3 := by
    rcases y3.cur with hc | ⟨h0, -⟩
    · exact hc
    · omega
  refine Breaks.bind (breaks_setAttrs _) (leads_setAttrs r3 _) (gS _) (fun _ => sgrowsE_placeCursor) ?_
  rintro _ c4 x4 ⟨o4, r4, d4, th4⟩
  have hb4 : x4.buf = x3.buf := congrArg SData.buf d4
  have hk4 : x4.clear = x3.clear := congrArg SData.clear d4
  have hr4 : x4.real = x3.real := congrArg SData.real d4
  have y4 : Sync u X x2.buf.size.area (gscr x4) { t3 with attrs := view ⟨none, none, .empty⟩ } :=
    y3.keep hb4 hr4 (gw_lk r4.attrs) rfl rfl rfl
  have hz4 : x4.buf.size = t3.size := y4.size.symm
  have hg4 : GoodSize x4.buf.size := y4.grid.size
  have htin : InBounds (target x4.buf) t3.size := by rw [← hz4]; exact target_in hg4
  refine Breaks.congr ?_ (wsPlaceCursor_eq x4 hg4)
  refine (breaks_move r4 htin).mono ?_
  rintro c5 x5 hs
  have hb5 : x5.buf = x3.buf := (congrArg SData.buf hs.2).trans hb4
  have hk5 : x5.clear = false := by
    rw [show x5.clear = x4.clear from congrArg SData.clear hs.2, hk4, k3, hk2, hk]
  have hr5 : x5.real = x3.real := (congrArg SData.real hs.2).trans hr4
  refine ⟨hk5, fun _ => ⟨0, _, o4, ?_, hs.rep r4, by rw [hb5, b3, hb2], fun ha hn q => ?_⟩⟩
  · have hbase : Base u X (gscr x5) { t3 with attrs := view ⟨none, none, .empty⟩ } :=
      y3.toBase.keep hb5 (gw_lk (hs.rep r4).attrs) rfl rfl
    refine { hbase.mono (fun j hj => Or.inl hj) with cur := fun _ => ?_, inval := ?_ }
    · unfold CurOk at hcur3 ⊢
      have e : (gscr x5).real = (gscr x3).real := hr5
      rw [e]; exact hcur3
    · have : (gscr x5).clear = false := hk5
      rw [this]; intro e; cases e
  · exact a3 (fun q => ha q) (by rw [hb2]; exact hn) q

/-- A refresh fails. -/
theorem breaks_refresh (hu : SpaceOk u) {X : Nat → Prop} {x : WScr} {c : Con} {t : Term}
    {o : OutBuf} (h : Held u X (gscr x) t) (hst : NoStale u X (gscr x) t)
    (halt : (∀ j, ¬ X j) ∨ ((x.clear = true ∨ AllNarrow t) ∧ NoWide u x.buf)) (hr : Rep wt x c t o) :
    Breaks u k c x (wsRefresh u wt) (fun c' x' => x'.clear = x.clear → ∃ i t' o',
      Held u (fun j => X j ∨ j = i) (gscr x') t' ∧ Rep wt x' c' t' o' ∧
      x'.buf = { x.buf with back := x'.buf.back } ∧
      ((x.clear = true ∨ AllNarrow t) → NoWide u x.buf → (x'.clear = true ∨ AllNarrow t'))) := by
  have hsp : u.w ' ' = 1 := by simp [UEnv.w, hu.width]
  have gE : ∀ th, SGrowsE (onT (winSetAttributes wt th)) := fun th => .onT (grows_setAttributes _ _)
  have gS : ∀ th, SGrows (onT (winSetAttributes wt th)) := fun th => .onT (grows_setAttributes _ _)
  unfold wsRefresh winClearAttributes
  cases hc : x.clear with
  | false =>
    have hsync : Sync u X 0 (gscr x) t := by
      refine { h.toBase with live := Or.inl rfl, fresh := ?_, done := ?_, cur := ?_, alt := ?_ }
      · intro j cl _ hl hx hb hk
        exact hst hc j cl hl hx hb hk
      · intro j cl hj; omega
      · exact Or.inl (h.cur hc)
      · refine halt.imp (fun hX => shy_none hX _ t) fun ⟨h1, h2⟩ => ⟨?_, h2⟩
        rcases h1 with h1 | h1
        · rw [hc] at h1; cases h1
        · exact h1
    refine Breaks.congr ((breaks_rest (k := k) hu hsync hr hc).mono ?_) ?_
    · rintro c' x' ⟨q1, q2⟩ -
      obtain ⟨i, t', o', s1, s2, s3, s4⟩ := q2 (h.cur hc)
      refine ⟨i, t', o', s1, s2, s3, fun ha hn => ?_⟩
      rcases ha with ha | ha
      · cases ha
      · exact Or.inr (s4 ha hn)
    · rw [sm_bind]
      have : wsClearIfNeeded wt x = .ok () x := by
        unfold wsClearIfNeeded SM.when
        rw [sm_bind, sm_get]
        dsimp only
        rw [hc]
        rfl
      rw [this]
  | true =>
    refine Breaks.bind ((breaks_clearIfNeeded hsp h hr).mono ?_)
      (leads_clearIfNeeded hsp h hst (halt.imp (fun hX => shy_none hX _ t) id) hr) (sgrows_clearIfNeeded _)
      (fun _ => SGrowsE.bind (gS _) (gE _)
      fun _ => SGrowsE.bind .get .get fun _ => SGrowsE.bind (sgrows_drawLoop _ _ _ _ _)
      (sgrowsE_drawLoop _ _ _ _ _) fun _ => SGrowsE.bind (gS _) (gE _) fun _ => sgrowsE_placeCursor) ?_
    · rintro c' x' ⟨-, t', o', q1, q2, q3⟩ hcl
      refine ⟨0, t', o', { q1.toBase.mono (fun j hj => Or.inl hj) with cur := q1.cur, inval := q1.inval },
        q2, ?_, fun _ _ => Or.inl hcl⟩
      have : x'.buf = x.buf := congrArg SData.buf q3
      rw [this]
    · rintro _ c1 x1 ⟨t1, o1, y1, r1, b1, k1, a1, -⟩
      refine (breaks_rest (k := k) hu y1 r1 k1).mono ?_
      rintro c' x' ⟨q1, -⟩ e
      rw [q1] at e; cases e

/-! ## Sessions -/

/-- Between the steps of a session without two-column characters; all but the cells of `bad` are on
the console as last drawn. -/
def WFInv (u : UEnv) (wt : WTerm) (bad : List Nat) (x : WSess) : Prop :=
  ∃ t o, Held u (fun j => j ∈ bad) (gscr x.s) t ∧ Rep wt x.s x.c t o ∧
    (x.s.clear = true ∨ AllNarrow t) ∧ NoWide u x.s.buf

theorem narrow_stale {X : Nat → Prop} {s : Scr} {t : Term} (h : s.clear = true ∨ AllNarrow t) :
    NoStale u X s t := by
  intro hc j c _ _ _ _
  rcases h with e | e
  · rw [hc] at e; cases e
  · obtain ⟨y, d, e⟩ := e (posOf t.size j)
    rw [e]
    constructor <;> (intro e'; cases e')

/-- The part of a step that is about the buffer alone. -/
def TryCarries (u : UEnv) (st : TryStep) (b : Buf) (y : WSess) : Prop :=
  match st.asOp with
  | none => y.s.buf = b.wb y.s.buf.back
  | some op => ∃ b1, op.run u b = some b1 ∧ y.s.buf = b1.wb y.s.buf.back

theorem wfinv_step (hT : TableOk u) {bad : List Nat} {x y : WSess} (h : WFInv u wt bad x)
    {st : TryStep} (hN : st.Narrow u) (e : st.To u wt x y) :
    (∃ bad', WFInv u wt bad' y ∧ bad'.length ≤ failedSince bad.length [st]) ∧
    ∀ b : Buf, x.s.buf = b.wb x.s.buf.back → TryCarries u st b y := by
  obtain ⟨t, o, h1, h2, h3, h4⟩ := h
  cases st with
  | failed =>
    obtain ⟨D, ⟨⟨er, e1⟩, e2, e3, e4⟩, e5, hcl⟩ := e
    obtain ⟨c', p1, q⟩ := breaks_refresh hT.space h1 (narrow_stale h3) (Or.inr ⟨h3, h4⟩) h2 er y.s D
      e1 e2 e3 e5
    rw [e4, Option.some.injEq] at p1
    subst p1
    obtain ⟨i, t', o', q1, q2, q3, q4⟩ := q hcl
    refine ⟨⟨i :: bad, ⟨t', o', ?_, q2, q4 h3 h4, ?_⟩, Nat.le_refl _⟩, fun b hb => ?_⟩
    · exact { q1.toBase.mono (fun j hj => by
            rcases hj with hj | hj
            · exact List.mem_cons_of_mem _ hj
            · rw [hj]; exact List.mem_cons_self ..) with cur := q1.cur, inval := q1.inval }
    · unfold NoWide
      rw [q3]; exact h4
    · show y.s.buf = b.wb y.s.buf.back
      rw [q3, hb]; rfl
  | did st =>
  cases st with
  | draw op =>
    obtain ⟨b', e1, rfl⟩ := e
    obtain ⟨hop, hs, hm⟩ := hN
    refine ⟨⟨bad, ⟨t, o, h1.draw hT hop (safeOp_narrow hT hop hs h1.grid.size.2.1) hm e1,
      ⟨h2.out, h2.active, h2.attrs, h2.small, h2.full, h2.rel⟩, h3,
      noWide_draw hT hop hs h1.grid h4 e1⟩, Nat.le_refl _⟩, fun b hb => ?_⟩
    show ∃ b1, _
    rw [hb, op_wb u _ op hop, Option.map_eq_some_iff] at e1
    obtain ⟨b1, q1, q2⟩ := e1
    refine ⟨b1, q1, ?_⟩
    show b' = b1.wb b'.back
    rw [← q2]; rfl
  | refresh =>
    obtain ⟨e1, D, e2, e3, e4⟩ := e
    obtain ⟨c', p1, t', o', q1, q2, q3, q4⟩ := leads_refresh hT.space h1 (narrow_stale h3)
      (Or.inr ⟨h3, h4⟩) h2 () y.s D e1 e2 e3
    rw [e4, Option.some.injEq] at p1
    subst p1
    refine ⟨⟨bad, ⟨t', o', q1.toHeld, q2, Or.inr (q4 h3 h4), ?_⟩, Nat.le_refl _⟩, fun b hb => ?_⟩
    · unfold NoWide
      rw [q3]; exact h4
    · show y.s.buf = b.wb y.s.buf.back
      rw [q3, hb]; rfl
  | other =>
    obtain ⟨e1, e2, e3, e4, e5⟩ := e
    have hg : gscr y.s = gscr x.s := by unfold gscr; rw [e1, e3]
    have hc : y.s.clear = x.s.clear := congrArg SData.clear e1
    have hb : y.s.buf = x.s.buf := congrArg SData.buf e1
    refine ⟨⟨bad, ⟨t, o, hg ▸ h1, ⟨by rw [e2, e5]; exact h2.out, by rw [e4, e2]; exact h2.active,
      by rw [e3]; exact h2.attrs, h2.small, by rw [hc]; exact h2.full, by rw [e3, hc]; exact h2.rel⟩,
      by rw [hc]; exact h3, by rw [hb]; exact h4⟩, Nat.le_refl _⟩, fun b hb' => ?_⟩
    show y.s.buf = b.wb y.s.buf.back
    rw [hb]; exact hb'
  | resized z o' =>
    have hs : SafeOp u x.s.buf (.resize z) := by
      refine ⟨?_, fun c cell _ _ hc hw => ?_⟩
      · have := e.2.2.1
        rw [← this]; exact hN.1.1
      · have := h4 cell (List.mem_of_getElem? hc)
        rw [isWide_iff.mpr hw] at this
        cases this
    obtain ⟨t', g1, g2, g3, g4, g5⟩ := resized_step hT h1 h2 hs hN e
    refine ⟨⟨[], ⟨t', o', ?_, g2, Or.inl g3, g4 h4⟩, Nat.le_refl _⟩, g5⟩
    have : (fun j => j ∈ ([] : List Nat)) = noCell := by
      funext j; simp [noCell]
    rw [this]; exact g1

theorem failedSince_mono : ∀ (ss : List TryStep) (n m : Nat), n ≤ m →
    failedSince n ss ≤ failedSince m ss
  | [], _, _, h => h
  | .failed :: ss, n, m, h => failedSince_mono ss (n + 1) (m + 1) (by omega)
  | .did (.resized _ _) :: ss, _, _, _ => Nat.le_refl _
  | .did (.draw _) :: ss, _, _, h => failedSince_mono ss _ _ h
  | .did .refresh :: ss, _, _, h => failedSince_mono ss _ _ h
  | .did .other :: ss, _, _, h => failedSince_mono ss _ _ h

theorem failedSince_cons (n : Nat) (st : TryStep) (ss : List TryStep) :
    failedSince n (st :: ss) = failedSince (failedSince n [st]) ss := by
  cases st with
  | failed => rfl
  | did st => cases st <;> rfl

theorem wfinv_run (hT : TableOk u) : ∀ (steps : List TryStep) (bad : List Nat) (x y : WSess) (b : Buf),
    WFInv u wt bad x → x.s.buf = b.wb x.s.buf.back → (∀ st ∈ steps, st.Narrow u) →
    TryStep.Path u wt steps x y →
    (∃ bad', WFInv u wt bad' y ∧ bad'.length ≤ failedSince bad.length steps) ∧
    ∃ b', runOps u (steps.filterMap TryStep.asOp) b = some b' ∧ y.s.buf = b'.wb y.s.buf.back := by
  intro steps
  induction steps with
  | nil =>
    intro bad x y b h hb _ e
    cases e
    exact ⟨⟨bad, h, Nat.le_refl _⟩, b, rfl, hb⟩
  | cons st steps ih =>
    rintro bad x y b h hb hN ⟨x', e1, e2⟩
    obtain ⟨⟨bad1, h', hle⟩, hc⟩ := wfinv_step hT h (hN st (List.mem_cons_self ..)) e1
    have hc := hc b hb
    have hN' : ∀ st ∈ steps, st.Narrow u := fun s hs => hN s (List.mem_cons_of_mem _ hs)
    have hend : ∀ b1, x'.s.buf = b1.wb x'.s.buf.back →
        (∃ bad', WFInv u wt bad' y ∧ bad'.length ≤ failedSince bad.length (st :: steps)) ∧
        ∃ b', runOps u (steps.filterMap TryStep.asOp) b1 = some b' ∧ y.s.buf = b'.wb y.s.buf.back := by
      intro b1 hb1
      obtain ⟨⟨bad2, i1, i2⟩, i3⟩ := ih bad1 x' y b1 h' hb1 hN' e2
      refine ⟨⟨bad2, i1, ?_⟩, i3⟩
      rw [failedSince_cons]
      exact Nat.le_trans i2 (failedSince_mono _ _ _ hle)
    unfold TryCarries at hc
    cases ha : st.asOp with
    | none =>
      rw [ha] at hc
      rw [List.filterMap_cons_none ha]
      exact hend b hc
    | some op =>
      rw [ha] at hc
      obtain ⟨b1, q1, q2⟩ := hc
      rw [List.filterMap_cons_some ha]
      obtain ⟨r1, b', r2, r3⟩ := hend b1 q2
      refine ⟨r1, b', ?_, r3⟩
      show (op.run u b).bind _ = _
      rw [q1]; exact r2

theorem tryPath_append : ∀ (a b : List TryStep) (x y : WSess), TryStep.Path u wt (a ++ b) x y →
    ∃ x', TryStep.Path u wt a x x' ∧ TryStep.Path u wt b x' y
  | [], b, x, y, h => ⟨x, rfl, h⟩
  | st :: a, b, x, y, ⟨x1, h1, h2⟩ => by
    obtain ⟨x', g1, g2⟩ := tryPath_append a b x1 y h2
    exact ⟨x', ⟨x1, h1, g1⟩, g2⟩

/-- What a refresh leaves on the console, but for some cells. -/
theorem conShowsBut_after {bad : List Nat} {x : WSess} {t : Term} {o : OutBuf}
    (h : After u (fun j => j ∈ bad) (gscr x.s) t) (hr : Rep wt x.s x.c t o) (ha : AllNarrow t)
    (hn : NoWide u x.s.buf) :
    ConShowsBut u wt.defAttrs o x.s.buf (bad.map (posOf x.s.buf.size)) ∧ o.word = wt.defAttrs ∧
    o.glyph.cur = some (target x.s.buf) := by
  have hc : x.s.clear = false := h.noClear
  have hg := hr.rel.glyph
  have hcell : ∀ q, o.glyph.cell q = (t.cell q).bare := fun q => by rw [hg]; rfl
  have hth : x.s.w.theme = plainTheme := by
    have := h.plain
    have this : (gw x.s.w.theme).theme = plainTheme := this
    rwa [gw_theme] at this
  have hsz : t.size = x.s.buf.size := h.size
  refine ⟨⟨?_, fun p c hin hp hcp => ?_⟩, ?_, ?_⟩
  · rw [hg]; exact hsz
  · have hnw : c.isWide u = false := hn c (List.mem_of_getElem? hcp)
    have hnot : numOf x.s.buf.size p ∉ bad := fun hm => hp (List.mem_map.mpr ⟨_, hm, posOf_numOf hin⟩)
    have hl : Live u x.s.buf.buffer (numOf x.s.buf.size p) :=
      (live_iff (b := x.s.buf) h.torn hin).mpr (noWide_noRight hn p)
    have hs := h.shown _ c hl hnot hcp
    rw [hsz, posOf_numOf hin] at hs
    unfold pic at hs
    rw [if_neg (by rw [hnw]; simp)] at hs
    unfold glyphOf
    rw [if_neg (fun hw => by rw [isWide_iff.mpr hw] at hnw; cases hnw)]
    obtain ⟨th, q1, q2⟩ := hr.rel.main hc p _ _ (Or.inl hs)
    exact ⟨by rw [hcell, hs]; rfl, dressed_iff q1 q2⟩
  · rw [hr.rel.word, hth]; exact themeWord_plain wt
  · rw [hg]
    refine h.atTarget ?_
    obtain ⟨y, d, e⟩ := ha (target (gscr x.s).buf)
    rw [e]; intro e'; cases e'

/-- What the last refresh of a session with failures leaves. -/
theorem wfail_end (hT : TableOk u) {cfg : PrepareConfig} {z : Size} (hz : ConSize z) {x y : WSess}
    (hx : WOpened u wt cfg z x) {steps : List TryStep} (hN : ∀ st ∈ steps, st.Narrow u)
    (h : TryStep.Path u wt (steps ++ [.did .refresh]) x y) :
    ∃ b, runOps u (steps.filterMap TryStep.asOp) (Buf.new z) = some b ∧
      ∃ o, y.c.outs y.s.w.outH = some o ∧ y.c.active = y.s.w.outH ∧
        ∃ bad : List Cursor, bad.length ≤ failedSince 0 steps ∧ ConShowsBut u wt.defAttrs o b bad ∧
          o.word = wt.defAttrs ∧ o.glyph.cur = some (target b) := by
  obtain ⟨x', h1, y', e, rfl⟩ := tryPath_append _ _ _ _ h
  obtain ⟨⟨t0, o0, j1, j2, j3, j4⟩, hb0⟩ := wopened_inv hT hz hx (N := True)
  have i0 : WFInv u wt [] x := by
    refine ⟨t0, o0, ?_, j2, (j4 trivial).1, (j4 trivial).2⟩
    have : (fun j => j ∈ ([] : List Nat)) = noCell := by
      funext j; simp [noCell]
    rw [this]; exact j1
  obtain ⟨⟨bad, i1, i2⟩, b, r1, r2⟩ := wfinv_run hT steps [] x x' (Buf.new z) i0 (by rw [hb0]; rfl) hN h1
  obtain ⟨t, o, k1, k2, k3, k4⟩ := i1
  obtain ⟨e1, D, e2, e3, e4⟩ := e
  obtain ⟨c', p1, t', o', q1, q2, q3, q4⟩ := leads_refresh hT.space k1
    (narrow_stale k3) (Or.inr ⟨k3, k4⟩) k2 () y.s D e1 e2 e3
  rw [e4, Option.some.injEq] at p1
  subst p1
  have hnw : NoWide u y.s.buf := by
    unfold NoWide
    rw [q3]; exact k4
  obtain ⟨s1, s2, s3⟩ := conShowsBut_after q1 q2 (q4 k3 k4) hnw
  have hb : y.s.buf = b.wb y.s.buf.back := by rw [q3, r2]; rfl
  refine ⟨b, r1, o', q2.out, q2.active, bad.map (posOf y.s.buf.size), ?_, ?_, s2, ?_⟩
  · rw [List.length_map]; exact i2
  · rw [hb] at s1 ⊢; exact s1
  · rw [hb] at s3; exact s3

/-! ## Checking by evaluation -/

/-- A failed refresh, by evaluation: the calls and the state after it. -/
def failW (u : UEnv) (t : WTerm) (x : WSess) : Option (List WEv × WSess) :=
  match wsRefresh u t x.s with
  | .err _ s =>
    let D := s.w.log.drop x.s.w.log.length
    if s.w.log = x.s.w.log ++ D then (checkPlay u t.inH D x.c).map fun c => (D, ⟨s, c⟩) else none
  | _ => none

theorem failW_sound {u : UEnv} {t : WTerm} {x y : WSess} {D : List WEv}
    (h : failW u t x = some (D, y)) : RefreshFails u t D x y := by
  unfold failW at h
  split at h
  · rename_i e s he
    dsimp only at h
    split at h
    · rename_i hl
      rw [Option.map_eq_some_iff] at h
      obtain ⟨c, h1, h2⟩ := h
      cases h2
      obtain ⟨g1, g2⟩ := checkPlay_sound _ _ _ h1
      exact ⟨⟨e, he⟩, hl, g1, g2⟩
    · cases h
  · cases h

/-- Is a call as a failed refresh may make it without further harm? -/
def mildB : WEv → Bool
  | .call (.setAttr _ _) .fail => false
  | .call (.write _ us) (.wrote n) => (n == us.length && decide (us.length < 0xFFFFFFFF)) || n == 0
  | _ => true

theorem mildB_sound {ev : WEv} (h : mildB ev = true) : MildCall ev := by
  unfold mildB at h
  split at h
  · cases h
  · simpa [MildCall] using h
  · rename_i h1 h2
    unfold MildCall
    split
    · rename_i a
      intro e
      exact h1 _ _ (by rw [e])
    · rename_i us n
      exact absurd rfl (h2 _ us n)
    · trivial

/-- A path, by evaluation. -/
def tryW (u : UEnv) (t : WTerm) : List TryStep → WSess → Option WSess
  | [], x => some x
  | .did st :: rest, x => (stepW u t x st).bind (tryW u t rest)
  | .failed :: rest, x => (failW u t x).bind fun r =>
    if r.1.all mildB ∧ r.2.s.clear = x.s.clear then tryW u t rest r.2 else none

theorem tryW_sound {u : UEnv} {t : WTerm} : ∀ (steps : List TryStep) (x y : WSess),
    tryW u t steps x = some y → TryStep.Path u t steps x y
  | [], x, y, h => by cases h; rfl
  | .did st :: rest, x, y, h => by
    simp only [tryW, Option.bind_eq_some_iff] at h
    obtain ⟨x1, h1, h2⟩ := h
    exact ⟨x1, stepW_sound h1, tryW_sound rest x1 y h2⟩
  | .failed :: rest, x, y, h => by
    simp only [tryW, Option.bind_eq_some_iff] at h
    obtain ⟨⟨D, x1⟩, h1, h2⟩ := h
    dsimp only at h2
    split at h2
    · rename_i hc
      exact ⟨x1, ⟨D, failW_sound h1, fun ev hev => mildB_sound (List.all_eq_true.mp hc.1 ev hev), hc.2⟩,
        tryW_sound rest x1 y h2⟩
    · cases h2

end Mortal
