import Verif.Lemmas.LiveTerm
import Verif.Lemmas.ScreenResize

/-! # Calls that send nothing one can see -/

namespace Mortal
open Spec

/-- What such calls do to the writer. -/
structure Mute (env : WEnv) (w w' : WS) : Prop where
  log : ∃ new, w'.log = w.log ++ new ∧ ∀ o ∈ new, Silent o
  theme : w'.theme = w.theme
  dlv : Delivered env w → Delivered env w'
  os : OsOk w → OsOk w'

theorem Mute.refl (env : WEnv) (w : WS) : Mute env w w :=
  ⟨⟨[], by simp, by simp⟩, rfl, id, id⟩

theorem Mute.trans {env : WEnv} {a b c : WS} (h1 : Mute env a b) (h2 : Mute env b c) :
    Mute env a c := by
  obtain ⟨n1, l1, s1⟩ := h1.log
  obtain ⟨n2, l2, s2⟩ := h2.log
  refine ⟨⟨n1 ++ n2, by rw [l2, l1, List.append_assoc], ?_⟩, h2.theme.trans h1.theme,
    fun h => h2.dlv (h1.dlv h), fun h => h2.os (h1.os h)⟩
  intro o ho
  rcases List.mem_append.mp ho with ho | ho
  · exact s1 o ho
  · exact s2 o ho

/-- A call of the writer, whatever its outcome. -/
def MuteOut (env : WEnv) (w : WS) (o : Outcome WS) : Prop := ∀ w', o.state = some w' → Mute env w w'

theorem quiet_flush (env : WEnv) (w : WS) : MuteOut env w (flush w) := by
  intro w' e
  have hd : Delivered env w → Delivered env w' := fun h => (delivered_inv env).flush w h w' e
  have ho : OsOk w → OsOk w' := fun h => (os_inv env).flush w h w' e
  cases hf : flush w with
  | ok x =>
    rw [hf] at e; cases e
    obtain ⟨a, b⟩ := flush_same.1 _ hf
    exact ⟨⟨[], by rw [a]; simp, by simp⟩, b, hd, ho⟩
  | err y x =>
    rw [hf] at e; cases e
    obtain ⟨a, b⟩ := flush_same.2 _ _ hf
    exact ⟨⟨[], by rw [a]; simp, by simp⟩, b, hd, ho⟩
  | stop r => rw [hf] at e; cases e

theorem quiet_sessionEnd (env : WEnv) (w : WS) : MuteOut env w (WOp.sessionEnd.run env w) := by
  intro w' e
  refine quiet_flush env w w' ?_
  dsimp only [WOp.run] at e
  cases hf : flush w with
  | ok x => rw [hf] at e; exact e
  | err y x => rw [hf] at e; exact e
  | stop r => rw [hf] at e; cases e

theorem quiet_write (env : WEnv) {b : Bytes} (hb : MouseText (.text b)) (w : WS) :
    MuteOut env w (writeBytes b w) := by
  intro w' e
  have hd : Delivered env w → Delivered env w' := fun h => (delivered_inv env).write b w h w' e
  have ho : OsOk w → OsOk w' := fun h => (os_inv env).write b w h w' e
  cases hf : writeBytes b w with
  | ok x =>
    rw [hf] at e; cases e
    obtain ⟨a, c⟩ := writeBytes_same.1 _ hf
    refine ⟨⟨_, a, ?_⟩, c, hd, ho⟩
    intro o h
    rw [List.mem_singleton.mp h]
    exact Or.inl hb
  | err y x =>
    rw [hf] at e; cases e
    obtain ⟨a, c⟩ := writeBytes_same.2 _ _ hf
    exact ⟨⟨[], by rw [a]; simp, by simp⟩, c, hd, ho⟩
  | stop r => rw [hf] at e; cases e

/-- The capabilities in question. -/
def SilentCap (c : Cap) : Prop :=
  c = .cursorNormal ∨ c = .cursorInvisible ∨ c = .keypadXmit ∨ c = .keypadLocal

theorem quiet_expand {env : WEnv} (hdb : GoodDB env) {c : Cap} (hc : SilentCap c) {ps : List Nat}
    {f : List Nat → Bytes × Bool} (hf : env.db c = some f) (w : WS) :
    MuteOut env w (expand env c ps f w) := by
  intro w' e
  have hd : Delivered env w → Delivered env w' :=
    fun h => (delivered_inv env).expand c ps f w hf h w' e
  have ho : OsOk w → OsOk w' := fun h => (os_inv env).expand c ps f w hf h w' e
  obtain ⟨x, e1, e2, e3⟩ := expand_step (env := env) (c := c) (w := w) (hdb c f hf ps)
  rw [e1] at e; cases e
  refine ⟨⟨_, e3, ?_⟩, e2, hd, ho⟩
  intro o h
  rw [List.mem_singleton.mp h]
  exact Or.inr ⟨c, ps, rfl, hc⟩

theorem quiet_expandOpt {env : WEnv} (hdb : GoodDB env) {c : Cap} (hc : SilentCap c) {ps : List Nat}
    (w : WS) : MuteOut env w (expandOpt env c ps w) := by
  unfold expandOpt
  split
  · rename_i f hf; exact quiet_expand hdb hc hf w
  · intro w' e; cases e; exact Mute.refl env w

theorem quiet_setCursorMode {env : WEnv} (hdb : GoodDB env) (m : CursorMode) (w : WS) :
    MuteOut env w (setCursorMode env m w) := by
  unfold setCursorMode
  cases m with
  | normal => exact quiet_expandOpt hdb (Or.inl rfl) w
  | overwrite => exact quiet_expandOpt hdb (Or.inl rfl) w
  | invisible => exact quiet_expandOpt hdb (Or.inr (Or.inl rfl)) w

/-! ## The calls that read -/

/-- The same for the whole state. -/
def MuteUS (env : WEnv) (s s' : US) : Prop := Mute env s.w s'.w

theorem MuteUS.same {env : WEnv} {s s' : US} (h : s'.w = s.w) : MuteUS env s s' := by
  unfold MuteUS
  rw [h]
  exact Mute.refl env _

instance (env : WEnv) : ReadFree (MuteUS env) where
  refl _ := MuteUS.same rfl
  trans h1 h2 := Mute.trans h1 h2
  dl s g := by unfold deliver; split <;> exact MuteUS.same rfl
  sc _ _ _ _ := MuteUS.same rfl
  wt _ _ := MuteUS.same rfl
  clr _ := MuteUS.same rfl
  inp _ _ _ _ := MuteUS.same rfl

section
variable {env : REnv} {e : WEnv}

theorem quietK_liftW {f : WS → Outcome WS} (hf : ∀ w, MuteOut e w (f w)) :
    Keeps (MuteUS e) (liftW f) := by
  intro s
  have h := hf s.w
  unfold liftW
  cases hc : f s.w with
  | ok w => rw [hc] at h; exact h w rfl
  | err e w => rw [hc] at h; exact h w rfl
  | stop r => trivial

theorem quietK_withWriter {α : Type} {m : M α} (h : Keeps (MuteUS env.w) m) :
    Keeps (MuteUS env.w) (withWriter env m) := by
  intro s
  have h1 := h s
  unfold withWriter
  cases hc : m s with
  | ok a s1 =>
    rw [hc] at h1
    have h2 : Keeps (MuteUS env.w) (do dropWriter env.w; pure a : M α) :=
      (quietK_liftW (quiet_sessionEnd _)).bind fun _ => Keeps.pure _
    have h3 := h2 s1
    dsimp only
    generalize (do dropWriter env.w; pure a : M α) s1 = r at h3 ⊢
    cases r with
    | ok b s2 => exact Frame.trans (R := MuteUS env.w) h1 h3
    | err e s2 => exact Frame.trans (R := MuteUS env.w) h1 h3
    | stop w => trivial
  | err e s1 =>
    rw [hc] at h1
    have h2 : Keeps (MuteUS env.w) (do dropWriter env.w; throwIo e : M α) :=
      (quietK_liftW (quiet_sessionEnd _)).bind fun _ => Keeps.throwIo _
    have h3 := h2 s1
    dsimp only
    generalize (do dropWriter env.w; throwIo e : M α) s1 = r at h3 ⊢
    cases r with
    | ok b s2 => exact Frame.trans (R := MuteUS env.w) h1 h3
    | err e s2 => exact Frame.trans (R := MuteUS env.w) h1 h3
    | stop w => trivial
  | stop w => trivial

theorem quietK_mouseOn (cfg : PrepareConfig) : Keeps (MuteUS env.w) (mouseOn env cfg) := by
  unfold mouseOn
  split
  · unfold enableMouse
    split
    · refine (quietK_liftW (quiet_write env.w ?_)).bind fun _ => Keeps.bind ?_ fun _ => Keeps.pure _
      · rw [enableMouse_text]; exact Or.inl rfl
      · split
        · refine quietK_liftW (quiet_write env.w ?_)
          rw [enableMotion_text]; exact Or.inr (Or.inr (Or.inl rfl))
        · exact Keeps.pure _
    · exact Keeps.pure _
  · exact Keeps.pure _

theorem quietK_keypadOn (hdb : GoodDB env.w) (cfg : PrepareConfig) :
    Keeps (MuteUS env.w) (keypadOn env cfg) := by
  unfold keypadOn
  split
  · unfold enableKeypad
    split
    · rename_i f hf
      exact (quietK_liftW (quiet_expand hdb (Or.inr (Or.inr (Or.inl rfl))) hf)).bind fun _ => Keeps.pure _
    · exact Keeps.pure _
  · exact Keeps.pure _

theorem quietK_sigaction (g : Sig) (d : Disp) : Keeps (MuteUS e) (sigaction g d) := by
  refine keeps_sysCall.bind fun _ => Keeps.getS.bind fun _ =>
    (Keeps.modifyS ?_).bind fun _ => Keeps.pure _
  exact fun _ => MuteUS.same rfl

theorem quietK_installIf (c : Bool) (g : Sig) : Keeps (MuteUS e) (installIf c g) := by
  unfold installIf
  split
  · exact (quietK_sigaction _ _).bind fun _ => Keeps.pure _
  · exact Keeps.pure _

theorem quietK_prepare (hdb : GoodDB env.w) (cfg : PrepareConfig) :
    Keeps (MuteUS env.w) (prepare env cfg) := by
  refine quietK_withWriter ?_
  refine (keeps_sysCall.bind fun _ => Keeps.getS.bind fun _ => Keeps.pure _).bind fun _ =>
    Keeps.getS.bind fun _ =>
    (keeps_sysCall.bind fun _ => Keeps.modifyS ?_).bind fun _ =>
    (quietK_mouseOn cfg).bind fun _ => (quietK_keypadOn hdb cfg).bind fun _ =>
    (quietK_liftW (quiet_flush _)).bind fun _ =>
    (quietK_sigaction _ _).bind fun _ => (quietK_sigaction _ _).bind fun _ =>
    (quietK_installIf _ _).bind fun _ => (quietK_installIf _ _).bind fun _ =>
    (quietK_installIf _ _).bind fun _ => (Keeps.modifyS ?_).bind fun _ => Keeps.pure _
  · exact fun _ => MuteUS.same rfl
  · exact fun _ => MuteUS.same rfl

theorem quietK_termSize : Keeps (MuteUS env.w) (termSize env) :=
  quietK_withWriter (keeps_sysCall.bind fun _ => Keeps.getS.bind fun _ => Keeps.pure _)

theorem quietK_cursorMode (hdb : GoodDB env.w) (m : CursorMode) :
    Keeps (MuteUS env.w) (termCursorMode env m) :=
  quietK_withWriter (quietK_liftW (quiet_setCursorMode hdb m))

theorem quietK_handle (hdb : GoodDB env.w) (sig : Signal) :
    Keeps (MuteUS env.w) (handleSignal env sig) := by
  have report : ∀ sig : Signal, Keeps (MuteUS env.w) (do
      if (← getS).report.contains sig then pure (some (Event.signal sig)) else pure none) := by
    intro sig
    refine Keeps.getS.bind fun s => ?_
    split <;> exact Keeps.pure _
  cases sig
  case «continue» =>
    refine Keeps.bind (Keeps.getS.bind fun s => ?_) fun _ => report _
    split
    · exact (quietK_prepare hdb _).bind fun _ => Keeps.pure _
    · exact Keeps.pure _
  case resize => exact quietK_termSize.bind fun _ => Keeps.pure _
  all_goals exact report _

theorem quietK_readEvent (hdb : GoodDB env.w) (t : Option Nat) :
    Keeps (MuteUS env.w) (readEvent env t) := keeps_readEvent env t (quietK_handle hdb)

theorem quietK_readRaw (hdb : GoodDB env.w) (n : Nat) (t : Option Nat) :
    Keeps (MuteUS env.w) (readRaw env n t) := keeps_readRaw env n t (quietK_handle hdb)

end

/-! ## The schedule -/

/-- The size of the window after some steps. -/
def sizeAfter (z : Size) (l : List Step) : Size := l.foldl (fun z st => st.resize.getD z) z

/-- The steps taken, and what became of the window's size. -/
def Passed (s s' : US) : Prop := ∃ l, s.sched = l ++ s'.sched ∧ s'.size = sizeAfter s.size l

theorem Passed.same {s s' : US} (h1 : s'.sched = s.sched) (h2 : s'.size = s.size) : Passed s s' :=
  ⟨[], by rw [h1]; rfl, h2⟩

theorem Passed.trans {a b c : US} (h1 : Passed a b) (h2 : Passed b c) : Passed a c := by
  obtain ⟨l1, a1, b1⟩ := h1
  obtain ⟨l2, a2, b2⟩ := h2
  refine ⟨l1 ++ l2, by rw [a1, a2, List.append_assoc], ?_⟩
  rw [b2, b1]
  unfold sizeAfter
  rw [List.foldl_append]

instance : InOnly Passed where
  refl _ := Passed.same rfl rfl
  trans := Passed.trans
  dl s g := by unfold deliver; split <;> exact Passed.same rfl rfl
  sc _ st _ h := ⟨[st], h, rfl⟩
  wt _ _ := Passed.same rfl rfl
  updW _ _ := Passed.same rfl rfl
  tio _ _ := Passed.same rfl rfl
  act _ _ := Passed.same rfl rfl
  cfg _ _ _ := Passed.same rfl rfl

instance : ReadFree Passed where
  clr _ := Passed.same rfl rfl
  inp _ _ _ _ := Passed.same rfl rfl

theorem Passed.used {s s' : US} (h : Passed s s') :
    s.sched = stepsUsed s s' ++ s'.sched ∧ s'.size = sizeAfter s.size (stepsUsed s s') := by
  obtain ⟨l, a, b⟩ := h
  have : stepsUsed s s' = l := by
    unfold stepsUsed
    rw [a, List.length_append, Nat.add_sub_cancel, List.take_left]
  rw [this]
  exact ⟨a, b⟩

theorem sizeAfter_kept {z : Size} {l : List Step} (h : ∀ st ∈ l, st.resize = none) :
    sizeAfter z l = z := by
  induction l with
  | nil => rfl
  | cons st l ih =>
    show sizeAfter (st.resize.getD z) l = z
    rw [h st List.mem_cons_self]
    exact ih fun st hst => h st (List.mem_cons_of_mem _ hst)

theorem Passed.kept {s s' : US} (h : Passed s s') (hk : SizeKept s s') : s'.size = s.size := by
  rw [h.used.2]
  exact sizeAfter_kept hk

theorem sizeAfter_good {z : Size} {l : List Step} (hz : ScreenSize z)
    (h : ∀ st ∈ l, ∀ z, st.resize = some z → ScreenSize z) : ScreenSize (sizeAfter z l) := by
  induction l generalizing z with
  | nil => exact hz
  | cons st l ih =>
    refine ih ?_ fun st hst => h st (List.mem_cons_of_mem _ hst)
    show ScreenSize (st.resize.getD z)
    cases hr : st.resize with
    | none => exact hz
    | some z' => exact h st List.mem_cons_self z' hr

theorem Passed.window {s s' : US} (h : Passed s s') (ho : OsOk s.w → OsOk s'.w) (hg : GoodWindow s) :
    GoodWindow s' := by
  obtain ⟨a, b⟩ := h.used
  refine ⟨?_, ?_, ho hg.2.2⟩
  · rw [b]
    refine sizeAfter_good hg.1 fun st hst => hg.2.1 st ?_
    rw [a]; exact List.mem_append_left _ hst
  · intro st hst
    refine hg.2.1 st ?_
    rw [a]; exact List.mem_append_right _ hst

end Mortal
