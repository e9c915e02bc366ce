import Verif.Spec.Writer

namespace Mortal
open Spec

/-! ## Style bits -/

theorem contains_bold (s : Style) : s.contains .BOLD = s.getLsbD 0 := by
  revert s; decide
theorem contains_italic (s : Style) : s.contains .ITALIC = s.getLsbD 1 := by
  revert s; decide
theorem contains_reverse (s : Style) : s.contains .REVERSE = s.getLsbD 2 := by
  revert s; decide
theorem contains_underline (s : Style) : s.contains .UNDERLINE = s.getLsbD 3 := by
  revert s; decide
theorem intersects_br (s : Style) :
    s.intersects (Style.BOLD ||| Style.REVERSE) = (s.getLsbD 0 || s.getLsbD 2) := by
  revert s; decide

theorem or_diff (a b : Style) : a ||| Style.diff b a = a ||| b := by
  ext i hi
  simp only [Style.diff, BitVec.getElem_or, BitVec.getElem_and, BitVec.getElem_not]
  cases a[i] <;> cases b[i] <;> rfl

theorem diff_and (a b : Style) : Style.diff a (b &&& a) = a &&& ~~~b := by
  ext i hi
  simp only [Style.diff, BitVec.getElem_and, BitVec.getElem_not]
  cases a[i] <;> cases b[i] <;> rfl

/-- The attributes the writer believes to be in effect. -/
def WS.theme (s : WS) : Theme := ⟨s.fg, s.bg, s.style⟩

/-- The assumption `F` implies that the terminal supports all attributes. -/
class Supp (F : Prop) (env : WEnv) : Prop where
  imp : F → FullAttrs env

instance (env : WEnv) : Supp (FullAttrs env) env := ⟨id⟩
instance (env : WEnv) : Supp False env := ⟨False.elim⟩

/-- The writer believes attributes `t` in effect, and under the assumption `F` those
in effect are `d`. -/
def Dev (F : Prop) (t : Theme) (d : DevAttrs) (s : WS) : Prop :=
  s.theme = t ∧ (F → devAttrs s.log = d)

/-- The writer believes attributes `t` in effect, and under the assumption `F` they
are. -/
def At (F : Prop) (t : Theme) (s : WS) : Prop := Dev F t (view t) s

/-- The outcome is a return, `Ok` with `P` or, if the terminal lacks something, an error. -/
def Post (F : Prop) (o : Outcome WS) (P : WS → Prop) : Prop :=
  match o with
  | .ok s => P s
  | .err _ _ => ¬ F
  | .stop _ => False

theorem Post.andThen {F : Prop} {o : Outcome WS} {P Q : WS → Prop} {f : WS → Outcome WS}
    (h : Post F o P) (hf : ∀ s, P s → Post F (f s) Q) : Post F (o >>? f) Q := by
  cases o with
  | ok s => exact hf s h
  | err e s => exact h
  | stop w => exact h.elim

theorem Post.mono {F : Prop} {o : Outcome WS} {P Q : WS → Prop}
    (h : Post F o P) (hf : ∀ s, P s → Q s) : Post F o Q := by
  cases o with
  | ok s => exact hf s h
  | err e s => exact h
  | stop w => exact h.elim

theorem expandOpt_post {F : Prop} (env : WEnv) [Supp F env] (c : Cap) (hc : IsAttrCap c) (ps : List Nat) (s : WS) :
    Post F (expandOpt env c ps s) fun s' =>
      s'.theme = s.theme ∧ (F → s'.log = s.log ++ [.cap c ps]) := by
  unfold expandOpt
  cases hd : env.db c with
  | none =>
    refine ⟨rfl, fun h => ?_⟩
    obtain ⟨f, hf, _⟩ := Supp.imp (env := env) h c hc
    rw [hd] at hf; cases hf
  | some f =>
    show Post F (expand env c ps f s) _
    unfold expand
    rcases hg : f ps with ⟨bytes, good⟩
    cases good with
    | true => exact ⟨rfl, fun _ => rfl⟩
    | false =>
      intro h
      obtain ⟨f', hf, hgood⟩ := Supp.imp (env := env) h c hc
      rw [hd] at hf
      cases hf
      have := hgood ps
      rw [hg] at this
      cases this

theorem devAttrs_snoc (l : List Out) (o : Out) : devAttrs (l ++ [o]) = devStep (devAttrs l) o := by
  simp [devAttrs, List.foldl_append]

theorem cap_post {F : Prop} {env : WEnv} [Supp F env] {c : Cap} (hc : IsAttrCap c) (ps : List Nat) {s : WS} {t : Theme}
    {d : DevAttrs} (h : Dev F t d s) :
    Post F (expandOpt env c ps s) (Dev F t (devStep d (.cap c ps))) := by
  refine (expandOpt_post env c hc ps s).mono fun s' hs' => ⟨hs'.1.trans h.1, fun hf => ?_⟩
  rw [hs'.2 hf, devAttrs_snoc, h.2 hf]

theorem theme_eq {s : WS} {t : Theme} (h : s.theme = t) :
    s.fg = t.fg ∧ s.bg = t.bg ∧ s.style = t.style := by subst h; exact ⟨rfl, rfl, rfl⟩

theorem clear_post {F : Prop} {env : WEnv} [Supp F env] {s : WS} {t : Theme} (hs : At F t s) :
    Post F (clearAttributes env s) (At F plainTheme) := by
  unfold clearAttributes
  by_cases h : (s.fg.isSome || s.bg.isSome || !s.style.isEmpty) = true
  · rw [if_pos h]
    exact cap_post (c := .exitAttributeMode) (d := view t) trivial [] ⟨rfl, hs.2⟩
  · rw [if_neg h]
    have ht : s.theme = plainTheme := by
      simp only [Bool.or_eq_true, not_or, Bool.not_eq_true, Option.isSome_eq_false_iff,
        Option.isNone_iff_eq_none, Bool.not_eq_false', Style.isEmpty, beq_iff_eq] at h
      obtain ⟨⟨h1, h2⟩, h3⟩ := h
      simp [WS.theme, plainTheme, h1, h2, h3]
    have : t = plainTheme := hs.1.symm.trans ht
    subst this
    exact hs

/-- One conditional attribute command. -/
theorem when_post {F : Prop} {env : WEnv} [Supp F env] {b : Bool} {c : Cap} (hc : IsAttrCap c) {s : WS} {t : Theme}
    {d : DevAttrs} (h : Dev F t d s) :
    Post F (whenDo b (expandOpt env c []) s)
      (Dev F t (if b then devStep d (.cap c []) else d)) := by
  cases b with
  | false => exact h
  | true => exact cap_post hc [] h

theorem addStyle_post {F : Prop} {env : WEnv} [Supp F env] (st : Style) {s : WS} {t : Theme} (hs : At F t s) :
    Post F (addStyle env st s) (At F { t with style := t.style ||| st }) := by
  unfold addStyle
  obtain ⟨_, _, hst0⟩ := theme_eq hs.1
  refine Post.andThen (Post.andThen (Post.andThen (Post.andThen
    (when_post (c := .enterBold) trivial hs)
    (fun s1 h1 => when_post (c := .enterItalics) trivial h1))
    (fun s2 h2 => when_post (c := .enterReverse) trivial h2))
    (fun s3 h3 => when_post (c := .enterUnderline) trivial h3)) (fun s4 h4 => ?_)
  obtain ⟨hfg, hbg, hst⟩ := theme_eq h4.1
  refine ⟨?_, fun hf => ?_⟩
  · simp [WS.theme, hst, hfg, hbg, hst0, or_diff]
  · show devAttrs s4.log = _
    rw [h4.2 hf, hst0]
    simp only [contains_bold, contains_italic, contains_reverse, contains_underline, view,
      Style.diff, BitVec.getLsbD_and, BitVec.getLsbD_or, BitVec.getLsbD_not]
    cases st.getLsbD 0 <;> cases st.getLsbD 1 <;> cases st.getLsbD 2 <;> cases st.getLsbD 3 <;>
    cases t.style.getLsbD 0 <;> cases t.style.getLsbD 1 <;> cases t.style.getLsbD 2 <;>
    cases t.style.getLsbD 3 <;> rfl

theorem removeSimple_post {F : Prop} {env : WEnv} [Supp F env] (n : Nat) (st : Style) {s : WS} {t : Theme}
    (hs : At F t s)
    (h : (st &&& t.style).intersects (Style.BOLD ||| Style.REVERSE) = false) :
    Post F (areq env (n + 1) (.removeStyle st) s)
      (At F { t with style := t.style &&& ~~~st }) := by
  unfold areq
  obtain ⟨_, _, hst0⟩ := theme_eq hs.1
  dsimp only
  rw [hst0, if_neg (by rw [h]; simp)]
  refine Post.andThen (Post.andThen
    (when_post (c := .exitItalics) trivial hs)
    (fun s1 h1 => when_post (c := .exitUnderline) trivial h1)) (fun s4 h4 => ?_)
  obtain ⟨hfg, hbg, hst⟩ := theme_eq h4.1
  refine ⟨?_, fun hf => ?_⟩
  · simp [WS.theme, hst, hfg, hbg, diff_and]
  · show devAttrs s4.log = _
    rw [h4.2 hf]
    rw [intersects_br] at h
    simp only [contains_italic, contains_underline, view,
      BitVec.getLsbD_and, BitVec.getLsbD_not] at h ⊢
    revert h
    cases st.getLsbD 0 <;> cases st.getLsbD 1 <;> cases st.getLsbD 2 <;> cases st.getLsbD 3 <;>
    cases t.style.getLsbD 0 <;> cases t.style.getLsbD 1 <;> cases t.style.getLsbD 2 <;>
    cases t.style.getLsbD 3 <;> intro h <;> first | rfl | cases h

/-- `set_fg` where no clearing is needed. -/
theorem setFgEasy_post {F : Prop} {env : WEnv} [Supp F env] (n : Nat) (c : Option Color) {s : WS} {t : Theme}
    (hs : At F t s) (h : c = none → t.fg = none) :
    Post F (areq env (n + 1) (.setFg c) s) (At F { t with fg := c }) := by
  unfold areq
  obtain ⟨hfg0, _, _⟩ := theme_eq hs.1
  by_cases hc : s.fg = c
  · rw [if_pos hc]
    have : ({ t with fg := c } : Theme) = t := by rw [← hc, hfg0]
    rw [this]
    exact hs
  · rw [if_neg hc]
    cases c with
    | none => exact absurd (hfg0.trans (h rfl)) hc
    | some c =>
      refine Post.andThen (cap_post (c := .setAForeground) trivial [colorCode c] hs)
        fun s' hs' => ?_
      obtain ⟨_, hbg, hst⟩ := theme_eq hs'.1
      refine ⟨by simp [WS.theme, hst, hbg], fun hf => ?_⟩
      show devAttrs s'.log = _
      rw [hs'.2 hf]
      cases c <;> rfl

/-- `set_bg` where no clearing is needed. -/
theorem setBgEasy_post {F : Prop} {env : WEnv} [Supp F env] (n : Nat) (c : Option Color) {s : WS} {t : Theme}
    (hs : At F t s) (h : c = none → t.bg = none) :
    Post F (areq env (n + 1) (.setBg c) s) (At F { t with bg := c }) := by
  unfold areq
  obtain ⟨_, hbg0, _⟩ := theme_eq hs.1
  by_cases hc : s.bg = c
  · rw [if_pos hc]
    have : ({ t with bg := c } : Theme) = t := by rw [← hc, hbg0]
    rw [this]
    exact hs
  · rw [if_neg hc]
    cases c with
    | none => exact absurd (hbg0.trans (h rfl)) hc
    | some c =>
      refine Post.andThen (cap_post (c := .setABackground) trivial [colorCode c] hs)
        fun s' hs' => ?_
      obtain ⟨hfg, _, hst⟩ := theme_eq hs'.1
      refine ⟨by simp [WS.theme, hst, hfg], fun hf => ?_⟩
      show devAttrs s'.log = _
      rw [hs'.2 hf]
      cases c <;> rfl

theorem At.cast {F : Prop} {t t' : Theme} {s : WS} (h : At F t s) (e : t = t') :
    At F t' s := e ▸ h

theorem setStyle_post {F : Prop} {env : WEnv} [Supp F env] (n : Nat) (st : Style) {s : WS} {t : Theme} (hs : At F t s) :
    Post F (areq env (n + 2) (.setStyle st) s) (At F { t with style := st }) := by
  unfold areq
  obtain ⟨hfg0, hbg0, hst0⟩ := theme_eq hs.1
  dsimp only
  rw [hst0, hfg0, hbg0]
  by_cases h : (Style.diff t.style st).intersects (Style.BOLD ||| Style.REVERSE) = true
  · rw [if_pos h]
    refine Post.mono (Post.andThen (Post.andThen (Post.andThen (clear_post hs)
      (fun s1 h1 => setFgEasy_post n _ h1 (fun _ => rfl)))
      (fun s2 h2 => setBgEasy_post n _ h2 (fun _ => rfl)))
      (fun s3 h3 => addStyle_post _ h3)) fun s4 h4 => h4.cast ?_
    simp [plainTheme]
  · rw [if_neg h]
    refine Post.mono (Post.andThen (addStyle_post _ hs)
      (fun s1 h1 => removeSimple_post n _ h1 ?_)) fun s2 h2 => h2.cast ?_
    · simp only [Bool.not_eq_true] at h
      rw [intersects_br] at h ⊢
      simp only [Style.diff, BitVec.getLsbD_and, BitVec.getLsbD_or, BitVec.getLsbD_not] at h ⊢
      revert h
      cases st.getLsbD 0 <;> cases st.getLsbD 2 <;>
      cases t.style.getLsbD 0 <;> cases t.style.getLsbD 2 <;> simp
    · have : (t.style ||| Style.diff st t.style) &&& ~~~(Style.diff t.style st) = st := by
        ext i hi
        simp only [Style.diff, BitVec.getElem_and, BitVec.getElem_or, BitVec.getElem_not]
        cases t.style[i] <;> cases st[i] <;> rfl
      simp only [this]

theorem removeStyle_post {F : Prop} {env : WEnv} [Supp F env] (n : Nat) (st : Style) {s : WS} {t : Theme}
    (hs : At F t s) :
    Post F (areq env (n + 2) (.removeStyle st) s)
      (At F { t with style := t.style &&& ~~~st }) := by
  by_cases h : (st &&& t.style).intersects (Style.BOLD ||| Style.REVERSE) = true
  · unfold areq
    obtain ⟨hfg0, hbg0, hst0⟩ := theme_eq hs.1
    dsimp only
    rw [hst0, hfg0, hbg0, if_pos h]
    refine Post.mono (Post.andThen (Post.andThen (Post.andThen (clear_post hs)
      (fun s1 h1 => addStyle_post _ h1))
      (fun s2 h2 => setFgEasy_post n _ h2 (fun _ => rfl)))
      (fun s3 h3 => setBgEasy_post n _ h3 (fun _ => rfl))) fun s4 h4 => h4.cast ?_
    simp [plainTheme, diff_and]
  · exact removeSimple_post (n + 1) st hs (by simpa using h)

theorem setFg_post {F : Prop} {env : WEnv} [Supp F env] (n : Nat) (c : Option Color) {s : WS} {t : Theme}
    (hs : At F t s) :
    Post F (areq env (n + 4) (.setFg c) s) (At F { t with fg := c }) := by
  cases c with
  | some c => exact setFgEasy_post (n + 3) _ hs (by simp)
  | none =>
    obtain ⟨hfg0, hbg0, hst0⟩ := theme_eq hs.1
    by_cases hc : t.fg = none
    · exact setFgEasy_post (n + 3) _ hs (fun _ => hc)
    · unfold areq
      rw [if_neg (by rw [hfg0]; exact hc)]
      dsimp only
      refine Post.andThen (P := At F { t with fg := none }) ?_ ?_
      · unfold areq
        rw [hbg0, hst0]
        refine Post.mono (Post.andThen (Post.andThen (clear_post hs)
          (fun s2 h2 => setBgEasy_post (n + 1) _ h2 (fun _ => rfl)))
          (fun s3 h3 => setStyle_post n _ h3)) fun s4 h4 => h4.cast rfl
      · intro s1 h1
        refine ⟨?_, h1.2⟩
        obtain ⟨_, hb, hs⟩ := theme_eq h1.1
        simp [WS.theme, hb, hs]

theorem setBg_post {F : Prop} {env : WEnv} [Supp F env] (n : Nat) (c : Option Color) {s : WS} {t : Theme}
    (hs : At F t s) :
    Post F (areq env (n + 4) (.setBg c) s) (At F { t with bg := c }) := by
  cases c with
  | some c => exact setBgEasy_post (n + 3) _ hs (by simp)
  | none =>
    obtain ⟨hfg0, hbg0, hst0⟩ := theme_eq hs.1
    by_cases hc : t.bg = none
    · exact setBgEasy_post (n + 3) _ hs (fun _ => hc)
    · unfold areq
      rw [if_neg (by rw [hbg0]; exact hc)]
      dsimp only
      refine Post.andThen (P := At F { t with bg := none }) ?_ ?_
      · unfold areq
        rw [hfg0, hst0]
        refine Post.mono (Post.andThen (Post.andThen (clear_post hs)
          (fun s2 h2 => setFgEasy_post (n + 1) _ h2 (fun _ => rfl)))
          (fun s3 h3 => setStyle_post n _ h3)) fun s4 h4 => h4.cast rfl
      · intro s1 h1
        refine ⟨?_, h1.2⟩
        obtain ⟨hb, _, hs⟩ := theme_eq h1.1
        simp [WS.theme, hb, hs]

theorem setAttrs_post {F : Prop} {env : WEnv} [Supp F env] (fg bg : Option Color) (st : Style) {s : WS} {t : Theme}
    (hs : At F t s) :
    Post F (setAttrs env fg bg st s) (At F ⟨fg, bg, st⟩) := by
  unfold setAttrs
  refine Post.andThen (Post.andThen (Post.andThen
    (P := fun s => ∃ t, At F t s) ?_
    (Q := fun s => ∃ t : Theme, At F { t with style := st } s) ?_)
    (Q := fun s => ∃ t : Theme, At F { t with style := st, fg := fg } s) ?_) ?_
  · unfold whenDo
    split
    · exact (clear_post hs).mono fun s h => ⟨_, h⟩
    · exact ⟨t, hs⟩
  · rintro s1 ⟨t1, h1⟩
    exact (setStyle_post 6 st h1).mono fun s h => ⟨t1, h⟩
  · rintro s1 ⟨t1, h1⟩
    exact (setFg_post 4 fg h1).mono fun s h => ⟨t1, h⟩
  · rintro s1 ⟨t1, h1⟩
    exact (setBg_post 4 bg h1).mono fun s h => h

theorem attrCall_post {F : Prop} {env : WEnv} [Supp F env] {op : WOp} (ha : IsAttrCall op) {s : WS} {t : Theme}
    (hs : At F t s) (b : Bool) :
    Post F (op.run env s) (At F (want t (op, b))) := by
  cases op <;> first | exact ha.elim | skip
  case setFg c => exact setFg_post 4 c hs
  case setBg c => exact setBg_post 4 c hs
  case addStyle st => exact addStyle_post st hs
  case removeStyle st => exact removeStyle_post 6 st hs
  case setStyle st => exact setStyle_post 6 st hs
  case setTheme th => exact setAttrs_post th.fg th.bg th.style hs
  case clearAttributes => exact clear_post hs

/-! ## Operations that do not touch attributes -/

/-- Whatever the outcome, `P` holds of the state. -/
def Always (o : Outcome WS) (P : WS → Prop) : Prop := ∀ s, o.state = some s → P s

theorem Always.andThen {o : Outcome WS} {P : WS → Prop} {f : WS → Outcome WS}
    (h : Always o P) (hf : ∀ s, P s → Always (f s) P) : Always (o >>? f) P := by
  cases o with
  | ok s => exact hf s (h s rfl)
  | err e s => exact h
  | stop w => exact h

theorem Always.ok {s : WS} {P : WS → Prop} (h : P s) : Always (.ok s) P := by
  intro s' e; cases e; exact h
theorem Always.err {s : WS} {e : IoErr} {P : WS → Prop} (h : P s) : Always (.err e s) P := by
  intro s' e; cases e; exact h
theorem Always.stop {w : Stop} {P : WS → Prop} : Always (.stop w) P := by
  intro s' e; cases e

/-- Commands and text that leave attributes alone. -/
theorem devStep_other {o : Out} (h : ∀ c ps, o = .cap c ps → ¬ IsAttrCap c) (d : DevAttrs) :
    devStep d o = d := by
  cases o with
  | text b => rfl
  | junk b => rfl
  | cap c ps => cases c <;> first | rfl | exact absurd trivial (h _ _ rfl)

theorem Dev.push {F : Prop} {t : Theme} {d : DevAttrs} {s s' : WS} (h : Dev F t d s)
    (ht : s'.theme = s.theme) {o : Out} (hl : s'.log = s.log ++ [o])
    (ho : ∀ c ps, o = .cap c ps → ¬ IsAttrCap c) : Dev F t d s' := by
  refine ⟨ht.trans h.1, fun hf => ?_⟩
  rw [hl, devAttrs_snoc, h.2 hf, devStep_other ho]

theorem flush_always {F : Prop} {t : Theme} {d : DevAttrs} {s : WS} (h : Dev F t d s) :
    Always (flush s) (Dev F t d) := by
  unfold flush
  split
  · exact Always.stop
  · split
    · exact Always.stop
    · dsimp only
      split
      · exact Always.ok h
      · exact Always.err h

theorem writeBytes_always {F : Prop} {t : Theme} {d : DevAttrs} {s : WS} (b : Bytes)
    (h : Dev F t d s) : Always (writeBytes b s) (Dev F t d) := by
  unfold writeBytes
  refine Always.andThen ?_ fun s h => ?_
  · split
    · exact flush_always h
    · exact Always.ok h
  · split
    · split
      · exact Always.stop
      · exact Always.ok (h.push rfl rfl (by simp))
      · exact Always.err h
    · exact Always.ok (h.push rfl rfl (by simp))

theorem expand_always {F : Prop} {env : WEnv} {t : Theme} {d : DevAttrs} {s : WS} {c : Cap}
    (hc : ¬ IsAttrCap c) (ps : List Nat) (f : List Nat → Bytes × Bool) (h : Dev F t d s) :
    Always (expand env c ps f s) (Dev F t d) := by
  unfold expand
  rcases f ps with ⟨b, good⟩
  dsimp only
  cases good
  · exact Always.err (h.push rfl rfl (by simp))
  · refine Always.ok (h.push rfl rfl ?_)
    intro c' ps' e
    cases e
    exact hc

theorem expandReq_always {F : Prop} {env : WEnv} {t : Theme} {d : DevAttrs} {s : WS} {c : Cap}
    (hc : ¬ IsAttrCap c) (ps : List Nat) (h : Dev F t d s) :
    Always (expandReq env c ps s) (Dev F t d) := by
  unfold expandReq
  split
  · exact expand_always hc ps _ h
  · exact Always.err h

theorem expandOpt_always {F : Prop} {env : WEnv} {t : Theme} {d : DevAttrs} {s : WS} {c : Cap}
    (hc : ¬ IsAttrCap c) (ps : List Nat) (h : Dev F t d s) :
    Always (expandOpt env c ps s) (Dev F t d) := by
  unfold expandOpt
  split
  · exact expand_always hc ps _ h
  · exact Always.ok h

theorem moveCursor_always {F : Prop} {env : WEnv} {t : Theme} {d : DevAttrs} {s : WS} (p : Cursor)
    (h : Dev F t d s) : Always (moveCursor env p s) (Dev F t d) := by
  unfold moveCursor
  split
  · split
    · exact expand_always (by simp [IsAttrCap]) _ _ h
    · split
      · exact expand_always (by simp [IsAttrCap]) _ _ h
      · exact Always.err h
  · exact expand_always (by simp [IsAttrCap]) _ _ h
  · exact Always.err h

/-- Calls other than attribute calls and `write_styled`. -/
theorem other_always {F : Prop} {env : WEnv} {t : Theme} {d : DevAttrs} {s : WS} {op : WOp}
    (ha : ¬ IsAttrCall op) (hw : ∀ fg bg st b, op ≠ .writeStyled fg bg st b) (h : Dev F t d s) :
    Always (op.run env s) (Dev F t d) := by
  cases op <;> first | exact absurd trivial ha | exact absurd rfl (hw _ _ _ _) | skip
  case writeStr b => exact writeBytes_always b h
  case flush => exact flush_always h
  case clearScreen => exact expandReq_always (by simp [IsAttrCap]) _ h
  case clearToLineEnd => exact expandReq_always (by simp [IsAttrCap]) _ h
  case clearToScreenEnd => exact expandReq_always (by simp [IsAttrCap]) _ h
  case moveUp n =>
    simp only [WOp.run, moveUp]
    split
    · exact expandReq_always (by simp [IsAttrCap]) _ h
    · split
      · exact expandReq_always (by simp [IsAttrCap]) _ h
      · exact Always.ok h
  case moveDown n =>
    simp only [WOp.run, moveDown]
    split
    · exact expandReq_always (by simp [IsAttrCap]) _ h
    · exact Always.ok h
  case moveLeft n =>
    simp only [WOp.run, moveLeft]
    split
    · exact expandReq_always (by simp [IsAttrCap]) _ h
    · split
      · exact expandReq_always (by simp [IsAttrCap]) _ h
      · exact Always.ok h
  case moveRight n =>
    simp only [WOp.run, moveRight]
    split
    · exact expandReq_always (by simp [IsAttrCap]) _ h
    · split
      · exact expandReq_always (by simp [IsAttrCap]) _ h
      · exact Always.ok h
  case moveToFirstColumn => exact writeBytes_always _ h
  case moveCursor p => exact moveCursor_always p h
  case setCursorMode m =>
    cases m <;> exact expandOpt_always (by simp [IsAttrCap]) _ h
  case sessionEnd =>
    have hfl := flush_always h
    simp only [WOp.run]
    split
    · rename_i s' e
      exact Always.ok (hfl s' (by rw [e]; rfl))
    · exact hfl

end Mortal
