import Verif.Lemmas.WinText
import Verif.Spec.WinAttr

/-! # The attributes of a Windows terminal -/

namespace Mortal
open Spec

/-- The theme a call asks for. -/
def AttrOp.want (th : Theme) : AttrOp → Theme
  | .fg c => { th with fg := c }
  | .bg c => { th with bg := c }
  | .style s => { th with style := s }
  | .add s => { th with style := th.style ||| Style.diff s th.style }
  | .remove s => { th with style := Style.diff th.style (s &&& th.style) }
  | .theme x => x
  | .clear => ⟨none, none, .empty⟩

theorem setFg_eq (t : WTerm) (c : Option Color) (s : WinSt) :
    winSetFg t c s = winSetAttributes t { s.theme with fg := c } s := by
  unfold winSetFg winSetAttributes
  simp only [sm_bind, sm_get]
  by_cases h : s.theme.fg = c
  · rw [if_neg (by simpa using h), if_neg]
    rw [← h]; exact not_not_intro rfl
  · rw [if_pos h, if_pos]
    · rfl
    · intro e; exact h (by rw [e])

theorem setBg_eq (t : WTerm) (c : Option Color) (s : WinSt) :
    winSetBg t c s = winSetAttributes t { s.theme with bg := c } s := by
  unfold winSetBg winSetAttributes
  simp only [sm_bind, sm_get]
  by_cases h : s.theme.bg = c
  · rw [if_neg (by simpa using h), if_neg]
    rw [← h]; exact not_not_intro rfl
  · rw [if_pos h, if_pos]
    · rfl
    · intro e; exact h (by rw [e])

theorem setStyle_eq (t : WTerm) (c : Style) (s : WinSt) :
    winSetStyle t c s = winSetAttributes t { s.theme with style := c } s := by
  unfold winSetStyle winSetAttributes
  simp only [sm_bind, sm_get]
  by_cases h : s.theme.style = c
  · rw [if_neg (by simpa using h), if_neg]
    rw [← h]; exact not_not_intro rfl
  · rw [if_pos h, if_pos]
    · rfl
    · intro e; exact h (by rw [e])

theorem add_empty (x s : Style) : (Style.diff s x).isEmpty = true ↔ x ||| Style.diff s x = x := by
  unfold Style.isEmpty Style.diff
  rw [beq_iff_eq]
  constructor
  · intro h; rw [h]; simp
  · intro h
    apply BitVec.eq_of_getLsbD_eq
    intro i hi
    have := congrArg (fun y => BitVec.getLsbD y i) h
    simp only [BitVec.getLsbD_or, BitVec.getLsbD_and, BitVec.getLsbD_not] at this ⊢
    revert this
    cases x.getLsbD i <;> cases s.getLsbD i <;> simp [hi]

theorem remove_empty (x s : Style) :
    (s &&& x).isEmpty = true ↔ Style.diff x (s &&& x) = x := by
  unfold Style.isEmpty Style.diff
  rw [beq_iff_eq]
  constructor
  · intro h; rw [h]; exact BitVec.and_allOnes
  · intro h
    apply BitVec.eq_of_getLsbD_eq
    intro i hi
    have := congrArg (fun y => BitVec.getLsbD y i) h
    simp only [BitVec.getLsbD_and, BitVec.getLsbD_not] at this ⊢
    revert this
    cases x.getLsbD i <;> cases s.getLsbD i <;> simp [hi]

theorem addStyle_eq (t : WTerm) (c : Style) (s : WinSt) :
    winAddStyle t c s = winSetAttributes t (AttrOp.want s.theme (.add c)) s := by
  unfold winAddStyle winSetAttributes
  simp only [sm_bind, sm_get]
  cases h : (Style.diff c s.theme.style).isEmpty with
  | true =>
    rw [if_neg (by simp), if_neg]
    have := (add_empty _ _).mp h
    simp only [ne_eq, AttrOp.want]
    rw [this]; exact not_not_intro rfl
  | false =>
    rw [if_pos (by rfl), if_pos]
    · rfl
    · intro e
      have : s.theme.style = (AttrOp.want s.theme (.add c)).style := by rw [← e]
      have := (add_empty _ _).mpr this.symm
      rw [h] at this; cases this

theorem removeStyle_eq (t : WTerm) (c : Style) (s : WinSt) :
    winRemoveStyle t c s = winSetAttributes t (AttrOp.want s.theme (.remove c)) s := by
  unfold winRemoveStyle winSetAttributes
  simp only [sm_bind, sm_get]
  cases h : (c &&& s.theme.style).isEmpty with
  | true =>
    rw [if_neg (by simp), if_neg]
    have := (remove_empty _ _).mp h
    simp only [ne_eq, AttrOp.want]
    rw [this]; exact not_not_intro rfl
  | false =>
    rw [if_pos (by rfl), if_pos]
    · rfl
    · intro e
      have : s.theme.style = (AttrOp.want s.theme (.remove c)).style := by rw [← e]
      have := (remove_empty _ _).mpr this.symm
      rw [h] at this; cases this

theorem attrOp_eq (t : WTerm) (op : AttrOp) (s : WinSt) :
    op.run t s = winSetAttributes t (AttrOp.want s.theme op) s := by
  cases op with
  | fg c => exact setFg_eq t c s
  | bg c => exact setBg_eq t c s
  | style c => exact setStyle_eq t c s
  | add c => exact addStyle_eq t c s
  | remove c => exact removeStyle_eq t c s
  | theme c => rfl
  | clear => rfl

theorem want_makes (th : Theme) (op : AttrOp) : op.Makes th (AttrOp.want th op) := by
  cases op with
  | add s =>
    refine ⟨rfl, rfl, fun i => ?_⟩
    simp only [AttrOp.want, Style.diff, BitVec.getLsbD_or, BitVec.getLsbD_and, BitVec.getLsbD_not]
    by_cases hi : i < 8
    · cases th.style.getLsbD i <;> cases s.getLsbD i <;> simp [hi]
    · simp [BitVec.getLsbD_of_ge _ _ (Nat.le_of_not_lt hi)]
  | remove s =>
    refine ⟨rfl, rfl, fun i => ?_⟩
    simp only [AttrOp.want, Style.diff, BitVec.getLsbD_and, BitVec.getLsbD_not]
    by_cases hi : i < 8
    · cases th.style.getLsbD i <;> cases s.getLsbD i <;> simp [hi]
    · simp [BitVec.getLsbD_of_ge _ _ (Nat.le_of_not_lt hi)]
  | clear => exact ⟨rfl, rfl, fun i => by simp [AttrOp.want, Style.empty]⟩
  | _ => first | exact ⟨rfl, rfl, rfl⟩ | rfl

theorem makes_unique {th a b : Theme} {op : AttrOp} (ha : op.Makes th a) (hb : op.Makes th b) :
    a = b := by
  have key : ∀ {a b : Theme}, a.fg = b.fg → a.bg = b.bg → a.style = b.style → a = b := by
    rintro ⟨_, _, _⟩ ⟨_, _, _⟩ h1 h2 h3
    simp only at h1 h2 h3
    rw [h1, h2, h3]
  cases op with
  | add s =>
    exact key (ha.1.trans hb.1.symm) (ha.2.1.trans hb.2.1.symm)
      (BitVec.eq_of_getLsbD_eq fun i _ => (ha.2.2 i).trans (hb.2.2 i).symm)
  | remove s =>
    exact key (ha.1.trans hb.1.symm) (ha.2.1.trans hb.2.1.symm)
      (BitVec.eq_of_getLsbD_eq fun i _ => (ha.2.2 i).trans (hb.2.2 i).symm)
  | clear =>
    exact key (ha.1.trans hb.1.symm) (ha.2.1.trans hb.2.1.symm)
      (BitVec.eq_of_getLsbD_eq fun i _ => (ha.2.2 i).trans (hb.2.2 i).symm)
  | fg c => exact key (ha.1.trans hb.1.symm) (ha.2.1.trans hb.2.1.symm) (ha.2.2.trans hb.2.2.symm)
  | bg c => exact key (ha.2.1.trans hb.2.1.symm) (ha.1.trans hb.1.symm) (ha.2.2.trans hb.2.2.symm)
  | style c =>
    exact key (ha.2.1.trans hb.2.1.symm) (ha.2.2.trans hb.2.2.symm) (ha.1.trans hb.1.symm)
  | theme c => exact ha.trans hb.symm

/-- The word for a theme. -/
def themeWord (t : WTerm) (th : Theme) : BitVec 16 := attrWord t.defAttrs th.fg th.bg th.style

theorem themeWord_plain (t : WTerm) : themeWord t ⟨none, none, .empty⟩ = t.defAttrs := by
  apply look_inj
  unfold themeWord
  rw [look_attrWord]
  simp [wantedLook, Style.empty]

theorem grows_conCall (c : ConCall) : Grows (conCall c) := by
  intro s
  constructor
  · intro a s' e
    obtain ⟨evs, -, h2, -⟩ := conCall_ok e
    exact ⟨evs ++ [.call c a], by rw [h2, List.append_assoc]⟩
  · intro e s' h'; exact absurd h' conCall_not_err

theorem grows_throw {α : Type} (e : IoErr) : Grows (SM.throw e : WM α) :=
  (Does.throw (u := demoEnv) (k := 0) (P := fun _ _ => False) (Q := fun _ _ _ => False) e).grows

theorem grows_halt {α : Type} (w : Stop) : Grows (SM.halt w : WM α) :=
  (Does.halt (u := demoEnv) (k := 0) (P := fun _ _ => False) (Q := fun _ _ _ => False)
    (E := fun _ _ _ => False) w).grows

theorem grows_modify {f : WinSt → WinSt} (hf : ∀ s, (f s).log = s.log) : Grows (SM.modify f) :=
  (Does.modify (u := demoEnv) (k := 0) (P := fun _ _ => False) (Q := fun _ _ _ => False)
    (E := fun _ _ _ => False) hf (fun _ _ h => h)).grows

theorem grows_ofPanics {α : Type} (x : Panics α) : Grows (SM.ofPanics x : WM α) :=
  (Does.ofPanics (u := demoEnv) (k := 0) (P := fun _ _ => False) (E := fun _ _ _ => False) x).grows

theorem grows_boolCall (c : ConCall) : Grows (boolCall c) := by
  unfold boolCall
  refine Grows.bind (grows_conCall c) fun a => ?_
  cases a <;> first | exact Grows.pure _ | exact grows_throw _ | exact grows_halt _

theorem grows_updateAttrs (t : WTerm) : Grows (updateAttrs t) :=
  Grows.bind grows_get fun _ => grows_boolCall _

theorem grows_setAttributes (t : WTerm) (th : Theme) : Grows (winSetAttributes t th) := by
  unfold winSetAttributes
  refine Grows.bind grows_get fun a => ?_
  split
  · exact Grows.bind (grows_modify (fun _ => rfl)) fun _ => grows_updateAttrs t
  · exact Grows.pure _

theorem SameTerm.setTheme {a b : WinSt} (h : SameTerm a b) (x : Theme) :
    SameTerm { a with theme := x } { b with theme := x } :=
  ⟨h.outH, rfl, h.rd, h.catchSet⟩

variable {u : UEnv} {k : Nat}

theorem does_updateAttrs (c0 : Con) (s0 : WinSt) (t : WTerm) :
    Does u k (CAt c0 s0) (updateAttrs t)
      (fun _ c s => ∃ o, c0.outs s0.outH = some o ∧
        CAt (c0.setOut s0.outH { o with word := themeWord t s0.theme }) s0 c s)
      (fun _ => CAt c0 s0) := by
  unfold updateAttrs
  refine Does.bind (R := fun a c s => (a.outH = s0.outH ∧ a.theme = s0.theme) ∧ CAt c0 s0 c s) ?_
    fun a => ?_
  · refine Does.mono Does.get (fun _ _ h => h) ?_ (fun _ _ _ h => h)
    rintro a c s ⟨rfl, h⟩
    exact ⟨⟨h.2.outH, h.2.theme⟩, h⟩
  · refine Does.assume (grows_boolCall _) fun e => ?_
    rw [e.1, e.2]
    refine Does.mono (does_bool c0 s0 (E := fun _ => CAt c0 s0) (fun c s h => h) _ (by bool_call)
      (fun c => ∃ o, c0.outs s0.outH = some o ∧
        c = c0.setOut s0.outH { o with word := themeWord t s0.theme }) ?_)
      (fun _ _ h => h) ?_ (fun _ _ _ h => h)
    · rintro q (pos | ⟨-, o, ho⟩)
      · cases pos
      · refine ⟨_, q, ⟨o, ho, rfl⟩, ?_⟩
        simp only [Con.step]
        rw [onOut_some (c := { c0 with queue := q }) ho]
        rfl
    · rintro a c s ⟨c1, ⟨o, ho, rfl⟩, h⟩; exact ⟨o, ho, h⟩

/-- `set_attributes`, when the attributes the terminal keeps are in effect. -/
theorem does_setAttributes (c0 : Con) (s0 : WinSt) (t : WTerm) (th : Theme) (o : OutBuf)
    (ho : c0.outs s0.outH = some o) (hw : o.word = themeWord t s0.theme) :
    Does u k (CAt c0 s0) (winSetAttributes t th)
      (fun _ => CAt (c0.setOut s0.outH { o with word := themeWord t th }) { s0 with theme := th })
      (fun _ => CAt c0 { s0 with theme := th }) := by
  unfold winSetAttributes
  refine Does.bind (R := fun a c s => a.theme = s0.theme ∧ CAt c0 s0 c s) ?_ fun a => ?_
  · refine Does.mono Does.get (fun _ _ h => h) ?_ (fun _ _ _ h => h)
    rintro a c s ⟨rfl, h⟩
    exact ⟨h.2.theme, h⟩
  · refine Does.assume ?_ fun e => ?_
    · split
      · exact Grows.bind (grows_modify (fun _ => rfl)) fun _ => grows_updateAttrs t
      · exact Grows.pure _
    · rw [e]
      refine Does.ite (fun hn => ?_) (fun hn => ?_)
      · refine Does.bind (R := fun _ => CAt c0 { s0 with theme := th }) ?_ fun _ => ?_
        · refine Does.modify (fun _ => rfl) ?_
          rintro c s ⟨h1, h2⟩
          exact ⟨h1, h2.setTheme th⟩
        · refine Does.mono (does_updateAttrs c0 { s0 with theme := th } t) (fun _ _ h => h) ?_
            (fun _ _ _ h => h)
          rintro _ c s ⟨o', ho', h⟩
          have ho' : c0.outs s0.outH = some o' := ho'
          rw [ho] at ho'; cases ho'
          exact h
      · have hn : s0.theme = th := by simpa using hn
        have e1 : ({ o with word := themeWord t th } : OutBuf) = o := by rw [← hn, ← hw]
        have e2 : ({ s0 with theme := th } : WinSt) = s0 := by rw [← hn]
        rw [e1, e2, setOut_self ho]
        exact Does.mono (Does.pure ()) (fun _ _ h => h) (fun _ _ _ h => h.2) (fun _ _ _ h => h)

theorem Does.congr {α : Type} {P : Con → WinSt → Prop} {m m' : WM α}
    {Q : α → Con → WinSt → Prop} {E : IoErr → Con → WinSt → Prop} (h : Does u k P m Q E)
    (hg : Grows m') (he : ∀ c s, P c s → m' s = m s) : Does u k P m' Q E :=
  ⟨hg, fun s c hp a s' D e => h.ok s c hp a s' D (by rw [← he c s hp, e]),
    fun s c hp a s' D e => h.err s c hp a s' D (by rw [← he c s hp, e])⟩

theorem grows_attrOp (t : WTerm) (op : AttrOp) : Grows (op.run t) := by
  intro s
  rw [attrOp_eq]
  exact grows_setAttributes t _ s

theorem does_attrOp (c0 : Con) (s0 : WinSt) (t : WTerm) (op : AttrOp) (o : OutBuf)
    (ho : c0.outs s0.outH = some o) (hw : o.word = themeWord t s0.theme) :
    Does u k (CAt c0 s0) (op.run t)
      (fun _ => CAt (c0.setOut s0.outH { o with word := themeWord t (AttrOp.want s0.theme op) })
        { s0 with theme := AttrOp.want s0.theme op })
      (fun _ => CAt c0 { s0 with theme := AttrOp.want s0.theme op }) := by
  refine Does.congr (does_setAttributes c0 s0 t (AttrOp.want s0.theme op) o ho hw)
    (grows_attrOp t op) ?_
  intro c s h
  rw [attrOp_eq, h.2.theme]

theorem grows_runAttrs (t : WTerm) : ∀ l, Grows (runAttrs t l)
  | [] => Grows.pure ()
  | op :: l => Grows.bind (grows_attrOp t op) fun _ => grows_runAttrs t l

theorem does_runAttrs (t : WTerm) : ∀ (l : List AttrOp) (c0 : Con) (s0 : WinSt) (o : OutBuf),
    c0.outs s0.outH = some o → o.word = themeWord t s0.theme →
    Does u k (CAt c0 s0) (runAttrs t l)
      (fun _ => CAt (c0.setOut s0.outH { o with word := themeWord t (l.foldl AttrOp.want s0.theme) })
        { s0 with theme := l.foldl AttrOp.want s0.theme })
      (fun _ c s => ∃ a op b, l = a ++ op :: b ∧
        CAt (c0.setOut s0.outH { o with word := themeWord t (a.foldl AttrOp.want s0.theme) })
          { s0 with theme := AttrOp.want (a.foldl AttrOp.want s0.theme) op } c s)
  | [], c0, s0, o, ho, hw => by
    have e1 : ({ o with word := themeWord t s0.theme } : OutBuf) = o := by rw [← hw]
    refine Does.mono (Does.pure ()) (fun _ _ h => h) ?_ (fun _ _ _ h => h)
    rintro _ c s ⟨-, h⟩
    show CAt (c0.setOut s0.outH { o with word := themeWord t s0.theme }) s0 c s
    rw [e1, setOut_self ho]; exact h
  | op :: l, c0, s0, o, ho, hw => by
    have e1 : ({ o with word := themeWord t s0.theme } : OutBuf) = o := by rw [← hw]
    refine Does.bind (Does.mono (does_attrOp c0 s0 t op o ho hw) (fun _ _ h => h)
      (fun _ _ _ h => h) ?_) fun _ => ?_
    · intro _ c s h
      refine ⟨[], op, l, rfl, ?_⟩
      show CAt (c0.setOut s0.outH { o with word := themeWord t s0.theme }) _ c s
      rw [e1, setOut_self ho]; exact h
    · let w := themeWord t (AttrOp.want s0.theme op)
      refine Does.mono (does_runAttrs t l (c0.setOut s0.outH { o with word := w }) { s0 with theme := AttrOp.want s0.theme op } _
        (setOut_outs _ _ _) rfl) (fun _ _ h => h) ?_ ?_
      · intro _ c s h
        rw [setOut_setOut] at h
        exact h
      · rintro _ c s ⟨a, op', b, e, h⟩
        rw [setOut_setOut] at h
        exact ⟨op :: a, op', b, by rw [e]; rfl, h⟩

theorem become_foldl (l : List AttrOp) : ∀ th, Become th l (l.foldl AttrOp.want th) := by
  induction l with
  | nil => exact fun th => .nil th
  | cons op l ih => exact fun th => .cons (want_makes th op) (ih _)

theorem become_unique {l : List AttrOp} : ∀ {th a : Theme}, Become th l a →
    a = l.foldl AttrOp.want th := by
  induction l with
  | nil => intro th a h; cases h; rfl
  | cons op l ih =>
    intro th a h
    cases h with
    | cons h1 h2 => rw [ih h2, makes_unique h1 (want_makes th op)]; rfl

theorem inEffect_iff {t : WTerm} {c : Con} {h : Nat} {th : Theme} :
    InEffect t c h th ↔ ∃ o, c.outs h = some o ∧ o.word = themeWord t th := by
  constructor
  · rintro ⟨o, h1, h2⟩
    exact ⟨o, h1, look_inj _ _ (by rw [h2, themeWord, look_attrWord])⟩
  · rintro ⟨o, h1, h2⟩
    exact ⟨o, h1, by rw [h2, themeWord, look_attrWord]⟩

theorem onlyWord_set {c : Con} {h : Nat} {o : OutBuf} (ho : c.outs h = some o) (w : BitVec 16)
    (q : List InRec) : OnlyWord h c { c.setOut h { o with word := w } with queue := q } := by
  refine ⟨rfl, rfl, rfl, fun j hj => ?_, o, _, ho, setOut_outs _ _ _, rfl⟩
  show (if j = h then _ else _) = _
  rw [if_neg hj]

theorem want_idem (th : Theme) (op : AttrOp) :
    AttrOp.want (AttrOp.want th op) op = AttrOp.want th op := by
  have key : ∀ x y : Style, x = y → ∀ f b, (⟨f, b, x⟩ : Theme) = ⟨f, b, y⟩ := by
    intro x y h f b; rw [h]
  cases op with
  | add s =>
    simp only [AttrOp.want]
    refine key _ _ ?_ _ _
    apply BitVec.eq_of_getLsbD_eq
    intro i hi
    simp only [Style.diff, BitVec.getLsbD_or, BitVec.getLsbD_and, BitVec.getLsbD_not]
    cases th.style.getLsbD i <;> cases s.getLsbD i <;> simp [hi]
  | remove s =>
    simp only [AttrOp.want]
    refine key _ _ ?_ _ _
    apply BitVec.eq_of_getLsbD_eq
    intro i hi
    simp only [Style.diff, BitVec.getLsbD_and, BitVec.getLsbD_not]
    cases th.style.getLsbD i <;> cases s.getLsbD i <;> simp [hi]
  | _ => rfl

theorem grows_consoleMode (h : Nat) : Grows (consoleMode h) :=
  Grows.bind (grows_conCall _) fun a => by
    cases a <;> first | exact Grows.pure _ | exact grows_throw _ | exact grows_halt _

theorem grows_consoleInfo (h : Nat) : Grows (consoleInfo h) :=
  Grows.bind (grows_conCall _) fun a => by
    cases a <;> first | exact Grows.pure _ | exact grows_throw _ | exact grows_halt _

theorem grows_handleCall (c : ConCall) : Grows (handleCall c) :=
  Grows.bind (grows_conCall _) fun a => by
    cases a <;> first
      | exact grows_halt _
      | (dsimp only; split <;> first | exact Grows.pure _ | exact grows_throw _)

theorem grows_prepareOutput (h : Nat) : Grows (prepareOutput h) :=
  Grows.bind (grows_consoleMode h) fun _ => Grows.bind (grows_boolCall _) fun _ => Grows.pure _

theorem does_getStd (c0 : Con) (s0 : WinSt) (id : Nat) :
    Does u k (CAt c0 s0) (handleCall (.getStd id)) (fun h c s => h ≠ 0 ∧ CAt c0 s0 c s)
      (fun _ => CAt c0 s0) := by
  unfold handleCall
  refine Does.bind (R := fun _ => CAt c0 s0) ?_ fun a => ?_
  · refine Does.call (CAt.stable c0 s0) _ ?_ (fun _ => CAt.stable c0 s0)
    rintro c s a hp ⟨h, rfl⟩
    exact ⟨c, rfl, hp⟩
  · cases a with
    | handle h =>
      refine Does.ite (fun _ => ?_) (fun hn => ?_)
      · exact Does.mono (Does.throw .os) (fun _ _ h => h) (fun _ _ _ h => h) (fun _ _ _ h => h.2)
      · refine Does.mono (Does.pure h) (fun _ _ h => h) ?_ (fun _ _ _ h => h)
        rintro b c s ⟨rfl, hc⟩
        exact ⟨hn, hc⟩
    | _ => exact .halt _

/-- `prepare_output`. -/
theorem does_prepareOutput (c0 : Con) (s0 : WinSt) {h : Nat} (hk : h ≠ k) :
    Does u k (CAt c0 s0) (prepareOutput h)
      (fun old c s => ∃ o m, c0.outs h = some o ∧ old = o.mode ∧
        CAt (c0.setOut h { o with mode := m }) s0 c s)
      (fun _ => CAt c0 s0) := by
  unfold prepareOutput
  refine Does.bind (does_mode c0 s0 (fun c s h => h) h) fun old => ?_
  refine Does.assume (Grows.bind (grows_boolCall _) fun _ => Grows.pure _) fun e => ?_
  refine Does.bind (does_setMode_out c0 s0 (fun c s h => h) hk _) fun _ => ?_
  refine Does.mono (Does.pure old) (fun _ _ h => h) ?_ (fun _ _ _ h => h)
  rintro _ c s ⟨rfl, o, ho, hc⟩
  refine ⟨o, _, ho, ?_, hc⟩
  rcases e with ⟨e, -⟩ | ⟨-, o', ho', e⟩
  · exact absurd e hk
  · rw [ho] at ho'; cases ho'; exact e

theorem does_prepareOutput_in (c0 : Con) (s0 : WinSt) :
    Does u k (CAt c0 s0) (prepareOutput k) (fun _ _ _ => True) (fun _ _ _ => True) := by
  unfold prepareOutput
  refine Does.bind (does_mode c0 s0 (E := fun _ _ _ => True) (fun _ _ _ => trivial) k) fun old => ?_
  refine Does.bind (R := fun _ => CAt { c0 with inMode := old ||| ENABLE_PROCESSED_OUTPUT |||
    ENABLE_WRAP_AT_EOL_OUTPUT } s0) (Does.mono (does_setMode_in c0 s0 (E := fun _ _ _ => True)
      (fun _ _ _ => trivial) _) (fun _ _ h => h.2) (fun _ _ _ h => h) (fun _ _ _ _ => trivial))
      fun _ => ?_
  exact Does.mono (Does.pure _) (fun _ _ h => h) (fun _ _ _ _ => trivial) (fun _ _ _ h => h)

/-- `Terminal::new`. -/
theorem does_new (c0 : Con) (s0 : WinSt) (out : Nat) :
    Does u k (CAt c0 s0) (winNew out)
      (fun t c s => s.theme = ⟨none, none, .empty⟩ ∧ (s.outH ≠ k →
        ∃ o m q, c0.outs s.outH = some o ∧ t.oldOut = o.mode ∧ t.defAttrs = o.word ∧
          c = { c0.setOut s.outH { o with mode := m } with queue := q }))
      (fun _ _ _ => True) := by
  unfold winNew
  refine Does.bind (Does.mono (does_getStd c0 s0 0) (fun _ _ h => h) (fun _ _ _ h => h.2)
    (fun _ _ _ _ => trivial)) fun inH => ?_
  refine Does.bind (Does.mono (does_getStd c0 s0 out) (fun _ _ h => h) (fun _ _ _ h => h.2)
    (fun _ _ _ _ => trivial)) fun h => ?_
  refine Does.bind (does_info c0 s0 (E := fun _ _ _ => True) (fun _ _ _ => trivial) h) fun i => ?_
  have hg : ∀ old, Grows (do
      SM.modify fun s => { s with outH := h, theme := ⟨none, none, .empty⟩, rd := ⟨false, 0⟩ }
      pure { inH := inH, defAttrs := i.attrs, oldOut := old } : WM WTerm) := fun old =>
    Grows.bind (grows_modify (fun _ => rfl)) fun _ => Grows.pure _
  refine Does.assume (Grows.bind (grows_prepareOutput h) fun old => hg old) ?_
  rintro ⟨o, ho, hT⟩
  by_cases hk : h = k
  · subst hk
    refine Does.bind (does_prepareOutput_in c0 s0) fun old => ?_
    refine Does.bind (R := fun _ _ s => s.theme = ⟨none, none, .empty⟩ ∧ s.outH = h) ?_ fun _ => ?_
    · exact Does.modify (fun _ => rfl) fun _ _ _ => ⟨rfl, rfl⟩
    · refine Does.mono (Does.pure _) (fun _ _ h => h) ?_ (fun _ _ _ h => h)
      rintro _ c s ⟨-, h1, h2⟩
      exact ⟨h1, fun hn => absurd h2 hn⟩
  · refine Does.bind (Does.mono (does_prepareOutput c0 s0 hk) (fun _ _ h => h) (fun _ _ _ h => h)
      (fun _ _ _ _ => trivial)) fun old => ?_
    refine Does.bind (R := fun _ c s => (s.theme = ⟨none, none, .empty⟩ ∧ s.outH = h) ∧
      ∃ o m q, c0.outs h = some o ∧ old = o.mode ∧
        c = { c0.setOut h { o with mode := m } with queue := q }) ?_ fun _ => ?_
    · refine Does.modify (fun _ => rfl) ?_
      rintro c s ⟨o, m, ho, e, ⟨q, hq⟩, -⟩
      exact ⟨⟨rfl, rfl⟩, o, m, q, ho, e, hq⟩
    · refine Does.mono (Does.pure _) (fun _ _ h => h) ?_ (fun _ _ _ h => h)
      rintro t c s ⟨rfl, ⟨h1, h2⟩, o', m, q, ho', e, hq⟩
      refine ⟨h1, fun _ => ⟨o', m, q, by rw [h2]; exact ho', e, ?_, by rw [h2]; exact hq⟩⟩
      rw [ho] at ho'; cases ho'
      exact hT.2.2.2.1

end Mortal
