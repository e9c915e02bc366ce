import Verif.Lemmas.ScreenResize
import Verif.Lemmas.Content
import Verif.Lemmas.ScreenSession
import Verif.Lemmas.Session
import Verif.Lemmas.Signals
import Verif.Spec.SizeKnown

/-! # Lemmas about the size a screen knows -/

namespace Mortal
open Spec

/-- What holds all the time once a screen is open. -/
structure Alert (k0 : Nat) (s : US) : Prop where
  record : ∀ g : Sig, s.last = g.num → s.seen.getLast? = some g
  ours : s.act.winch = .ours
  sent : WinchSent s
  grown : k0 ≤ s.seen.length

/-- The size `z` is the window's, or the signal is pending, or has been superseded. -/
def Known (k0 : Nat) (z : Size) (s : US) : Prop := z = s.size ∨ s.last = 28 ∨ Superseded k0 s.seen

/-- Both. -/
def Heeds (k0 : Nat) (z : Size) (s : US) : Prop := Alert k0 s ∧ Known k0 z s

/-- It stays so. -/
def HeedsOn (k0 : Nat) (z : Size) (s s' : US) : Prop := Heeds k0 z s → Heeds k0 z s'

theorem superseded_append {k0 : Nat} {l : List Sig} {g' : Sig} (h : Superseded k0 l) (hg' : g' ≠ .winch) :
    Superseded k0 (l ++ [g']) := by
  obtain ⟨a, g, b, rfl, hg, hn⟩ := h
  refine ⟨a, g, b ++ [g'], by simp, ?_, hn⟩
  intro hm
  rw [← List.cons_append, List.mem_append, List.mem_singleton] at hm
  exact hm.elim hg fun h => hg' h.symm

theorem sig_num_inj {g g' : Sig} (h : g.num = g'.num) : g = g' := by
  cases g <;> cases g' <;> first | rfl | cases h

theorem Alert.deliver {s : US} (h : Alert k0 s) (g : Sig) : Alert k0 (deliver s g) := by
  unfold Mortal.deliver
  split
  · refine ⟨fun g' e => ?_, h.ours, h.sent, ?_⟩
    · cases sig_num_inj e
      simp
    · have := h.grown
      simp only [List.length_append]
      omega
  · exact h

/-- Pending or superseded. -/
def Noted (k0 : Nat) (s : US) : Prop := s.last = 28 ∨ Superseded k0 s.seen

theorem Noted.deliver {s : US} (h : Noted k0 s) (ha : Alert k0 s) (g : Sig) : Noted k0 (deliver s g) := by
  unfold Mortal.deliver
  split
  · by_cases hg : g = .winch
    · subst hg
      exact Or.inl rfl
    · rcases h with h | h
      · have := ha.record .winch h
        obtain ⟨l, e⟩ := List.getLast?_eq_some_iff.1 this
        refine Or.inr ⟨l, g, [], by simp [e], fun h => hg (List.mem_singleton.1 h).symm, ?_⟩
        have := ha.grown
        rw [e] at this
        simpa using this
      · exact Or.inr (superseded_append h hg)
  · exact h

theorem deliver_winch {s : US} (ha : Alert k0 s) : Noted k0 (deliver s .winch) := by
  unfold Mortal.deliver
  rw [if_pos (show s.act.get .winch = .ours from ha.ours)]
  exact Or.inl rfl

theorem deliver_size (s : US) (g : Sig) : (deliver s g).size = s.size := by
  unfold Mortal.deliver
  split <;> rfl

theorem Known.deliver {z : Size} {s : US} (h : Known k0 z s) (ha : Alert k0 s) (g : Sig) :
    Known k0 z (deliver s g) := by
  rcases h with h | h
  · exact Or.inl (h.trans (deliver_size s g).symm)
  · exact Or.inr (Noted.deliver h ha g)

theorem heeds_deliverAll {z : Size} (l : List Sig) : ∀ {s : US}, Heeds k0 z s → Heeds k0 z (deliverAll s l) := by
  induction l with
  | nil => exact fun h => h
  | cons g l ih => exact fun h => ih ⟨h.1.deliver g, h.2.deliver h.1 g⟩

theorem alert_deliverAll (l : List Sig) : ∀ {s : US}, Alert k0 s → Alert k0 (deliverAll s l) := by
  induction l with
  | nil => exact fun h => h
  | cons g l ih => exact fun h => ih (h.deliver g)

theorem noted_deliverAll (l : List Sig) : ∀ {s : US}, Alert k0 s → Noted k0 s → Noted k0 (deliverAll s l) := by
  induction l with
  | nil => exact fun _ h => h
  | cons g l ih => exact fun ha h => ih (ha.deliver g) (h.deliver ha g)

theorem noted_winch (l : List Sig) (hl : .winch ∈ l) : ∀ {s : US}, Alert k0 s → Noted k0 (deliverAll s l) := by
  induction l with
  | nil => cases hl
  | cons g l ih =>
    intro s ha
    rcases List.mem_cons.1 hl with rfl | hl
    · exact noted_deliverAll l (ha.deliver _) (deliver_winch ha)
    · exact ih hl (ha.deliver g)

instance (z : Size) : Frame (HeedsOn k0 z) where
  refl _ h := h
  trans h1 h2 h := h2 (h1 h)

instance (z : Size) : WFree (HeedsOn k0 z) where
  updW _ _ h := ⟨⟨h.1.record, h.1.ours, h.1.sent, h.1.grown⟩, h.2⟩

theorem Heeds.like {z : Size} {s s' : US} (h : Heeds k0 z s) (h1 : s'.last = s.last) (h2 : s'.seen = s.seen)
    (h3 : s'.act.winch = s.act.winch) (h4 : s'.sched = s.sched) (h5 : s'.size = s.size) : Heeds k0 z s' := by
  obtain ⟨⟨a1, a2, a3, a4⟩, k⟩ := h
  refine ⟨⟨by rw [h1, h2]; exact a1, by rw [h3]; exact a2, ?_, by rw [h2]; exact a4⟩, ?_⟩
  · unfold WinchSent
    rw [h4]
    exact a3
  · unfold Known
    rw [h1, h2, h5]
    exact k

theorem Alert.advance {s : US} {st : Step} {rest : List Step} (h : Alert k0 s) (e : s.sched = st :: rest) :
    Alert k0 (s.advance st rest) :=
  ⟨h.record, h.ours, fun x hx => h.sent x (e ▸ List.mem_cons_of_mem _ hx), h.grown⟩

theorem size_tick {z : Size} : Keeps (HeedsOn k0 z) tick := by
  intro s
  unfold tick
  cases e : s.sched with
  | nil => trivial
  | cons st rest =>
    intro h
    have ha := h.1.advance e
    cases hr : st.resize with
    | none =>
      refine heeds_deliverAll _ ⟨ha, ?_⟩
      have := h.2
      unfold Known US.advance at *
      simp only [hr, Option.getD_none]
      exact this
    | some z' =>
      refine ⟨alert_deliverAll _ ha, Or.inr ?_⟩
      exact noted_winch _ (h.1.sent st (e ▸ List.mem_cons_self) (by rw [hr]; exact Option.some_ne_none _)) ha

theorem size_getSignal {z : Size} : Keeps (HeedsOn k0 z) getSignal :=
  size_tick.bind fun _ => Keeps.getS.bind fun _ => Keeps.pure _

theorem size_sysCall {z : Size} : Keeps (HeedsOn k0 z) sysCall := by
  refine size_tick.bind fun r => ?_
  cases r with
  | ok n => exact Keeps.pure _
  | eintr d e => exact (Keeps.modifyS fun s => heeds_deliverAll d).bind fun _ => Keeps.throwIo _
  | fail => exact Keeps.throwIo _

theorem size_select {z : Size} (t : Option Nat) : Keeps (HeedsOn k0 z) (sysSelect t) := by
  refine size_tick.bind fun r => ?_
  match r with
  | .ok 0 =>
    cases t with
    | none => exact Keeps.stop _
    | some t =>
      exact (Keeps.modifyS fun s h => h.like rfl rfl rfl rfl rfl).bind fun _ => Keeps.pure _
  | .ok (n + 1) => exact Keeps.pure _
  | .eintr d e =>
    refine (Keeps.modifyS fun s h => ?_).bind fun _ => Keeps.pure _
    exact heeds_deliverAll d (h.like (s' := { s with waited := _ }) rfl rfl rfl rfl rfl)
  | .fail => exact Keeps.throwIo _

theorem size_waitLoop {z : Size} (n : Nat) : ∀ t, Keeps (HeedsOn k0 z) (waitLoop n t) := by
  induction n with
  | zero => exact fun t => Keeps.stop _
  | succ n ih =>
    intro t
    refine (size_select t).bind fun r => ?_
    cases r with
    | done k => exact Keeps.pure _
    | eintr e =>
      refine size_getSignal.bind fun o => ?_
      cases o with
      | none => exact ih _
      | some x => exact Keeps.pure _

theorem size_waitEvent {z : Size} (env : REnv) (t : Option Nat) : Keeps (HeedsOn k0 z) (waitEvent env t) := by
  refine size_getSignal.bind fun o => ?_
  cases o with
  | some x => exact Keeps.pure _
  | none =>
    refine Keeps.getS.bind fun s => (keeps_peekM env _).bind fun o => ?_
    cases o with
    | some x => exact Keeps.pure _
    | none => exact Keeps.ofState fun s => size_waitLoop _ _

theorem size_sysRead {z : Size} (len : Nat) : Keeps (HeedsOn k0 z) (sysRead len) := by
  refine size_tick.bind fun r => ?_
  cases r with
  | ok n =>
    exact Keeps.getS.bind fun _ =>
      (Keeps.modifyS fun s h => h.like rfl rfl rfl rfl rfl).bind fun _ => Keeps.pure _
  | eintr d e => exact (Keeps.modifyS fun s => heeds_deliverAll d).bind fun _ => Keeps.pure _
  | fail => exact Keeps.throwIo _

theorem size_sigaction {z : Size} (g : Sig) : Keeps (HeedsOn k0 z) (sigaction g .ours) := by
  refine size_sysCall.bind fun _ => Keeps.getS.bind fun _ =>
    (Keeps.modifyS fun s h => ?_).bind fun _ => Keeps.pure _
  refine h.like rfl rfl ?_ rfl rfl
  have := h.1.ours
  cases g
  case winch => exact this.symm
  all_goals rfl

theorem size_installIf {z : Size} (c : Bool) (g : Sig) : Keeps (HeedsOn k0 z) (installIf c g) := by
  unfold installIf
  split
  · exact (size_sigaction _).bind fun _ => Keeps.pure _
  · exact Keeps.pure _

theorem wfree_mouseOn {R : US → US → Prop} [WFree R] (env : REnv) (cfg : PrepareConfig) :
    Keeps R (mouseOn env cfg) := by
  unfold mouseOn enableMouse
  split
  · split
    · refine (keeps_liftW _).bind fun _ => Keeps.bind ?_ fun _ => Keeps.pure _
      split
      · exact keeps_liftW _
      · exact Keeps.pure _
    · exact Keeps.pure _
  · exact Keeps.pure _

theorem wfree_keypadOn {R : US → US → Prop} [WFree R] (env : REnv) (cfg : PrepareConfig) :
    Keeps R (keypadOn env cfg) := by
  unfold keypadOn enableKeypad
  split
  · split
    · exact (keeps_liftW _).bind fun _ => Keeps.pure _
    · exact Keeps.pure _
  · exact Keeps.pure _

theorem size_prepare {z : Size} (env : REnv) (cfg : PrepareConfig) : Keeps (HeedsOn k0 z) (prepare env cfg) := by
  refine keeps_withWriter env ?_
  refine (size_sysCall.bind fun _ => Keeps.getS.bind fun _ => Keeps.pure _).bind fun _ =>
    Keeps.getS.bind fun _ => (size_sysCall.bind fun _ => Keeps.modifyS ?_).bind fun _ =>
    (wfree_mouseOn env cfg).bind fun _ => (wfree_keypadOn env cfg).bind fun _ =>
    (keeps_liftW _).bind fun _ =>
    (size_sigaction _).bind fun _ => (size_sigaction _).bind fun _ =>
    (size_installIf _ _).bind fun _ => (size_installIf _ _).bind fun _ =>
    (size_installIf _ _).bind fun _ => (Keeps.modifyS ?_).bind fun _ => Keeps.pure _
  · exact fun _ h => h.like rfl rfl rfl rfl rfl
  · exact fun _ h => h.like rfl rfl rfl rfl rfl

theorem size_handle {z : Size} (env : REnv) (sig : Signal) (hs : sig ≠ .resize) :
    Keeps (HeedsOn k0 z) (handleSignal env sig) := by
  have report : ∀ sig : Signal, Keeps (HeedsOn k0 z) (do
      if (← getS).report.contains sig then pure (some (Event.signal sig)) else pure none) := by
    intro sig
    refine Keeps.getS.bind fun s => ?_
    split <;> exact Keeps.pure _
  cases sig
  case «continue» =>
    refine Keeps.bind ?_ fun _ => report _
    refine Keeps.getS.bind fun s => ?_
    split
    · exact (size_prepare env _).bind fun _ => Keeps.pure _
    · exact Keeps.pure _
  case resize => exact (hs rfl).elim
  all_goals exact report _

/-! ## Taking signals -/

theorem Heeds.take {z : Size} {s : US} (h : Heeds k0 z s) : Alert k0 { s with last := 0 } ∧
    (convSignal s.last = some .resize ∨ Heeds k0 z { s with last := 0 }) := by
  have ha : Alert k0 { s with last := 0 } := by
    refine ⟨fun g e => ?_, h.1.ours, h.1.sent, h.1.grown⟩
    cases g <;> cases e
  refine ⟨ha, ?_⟩
  rcases h.2 with k | k | k
  · exact Or.inr ⟨ha, Or.inl k⟩
  · exact Or.inl (by rw [k]; rfl)
  · exact Or.inr ⟨ha, Or.inr (Or.inr k)⟩

theorem size_takeSignal {z : Size} {s s' : US} {o : Option Signal} (h : takeSignal s = .ok o s')
    (hs : Heeds k0 z s) : Alert k0 s' ∧ (o = some .resize ∨ Heeds k0 z s') := by
  obtain ⟨r, s1, h1, h2⟩ := M.bind_ok h
  obtain ⟨_, s2, h3, h4⟩ := M.bind_ok h2
  cases h3
  obtain ⟨_, s3, h5, h6⟩ := M.bind_ok h4
  cases h5
  cases h6
  exact (size_tick.ok h1 hs).take

theorem takeSignal_err {s s' : US} {e : IoErr} (h : takeSignal s = .err e s') : False := by
  rcases M.bind_err h with h | ⟨r, s1, h1, h2⟩
  · unfold tick at h
    split at h <;> cases h
  · rcases M.bind_err h2 with h | ⟨_, s2, h3, h4⟩
    · cases h
    · rcases M.bind_err h4 with h5 | ⟨_, s2, h5, h6⟩
      · cases h5
      · cases h6

/-- What holds after a read: if SIGWINCH was taken the result says so. -/
def SizeRead (k0 : Nat) (z : Size) (r : InRes) (s : US) : Prop :=
  Alert k0 s ∧ (r = .event (.signal .resize) ∨ Heeds k0 z s)

theorem size_readLoop {z : Size} (len : Nat) : ∀ (n : Nat) {s s' : US}, Heeds k0 z s →
    (∀ r, readLoop len n s = .ok r s' → SizeRead k0 z r s') ∧
    (∀ e, readLoop len n s = .err e s' → Heeds k0 z s')
  | 0, s, s', _ => ⟨fun r h => (by cases h), fun e h => (by cases h)⟩
  | n + 1, s, s', hs => by
    refine ⟨fun r h => ?_, fun e h => ?_⟩
    · obtain ⟨o, s1, h1, h2⟩ := M.bind_ok h
      have k1 := (size_sysRead len).ok h1 hs
      cases o with
      | done b => cases h2; exact ⟨k1.1, Or.inr k1⟩
      | eintr e =>
        obtain ⟨o, s2, h3, h4⟩ := M.bind_ok h2
        obtain ⟨k2, k3⟩ := size_takeSignal h3 k1
        cases o with
        | some sig =>
          cases h4
          rcases k3 with k3 | k3
          · cases k3; exact ⟨k2, Or.inl rfl⟩
          · exact ⟨k2, Or.inr k3⟩
        | none =>
          rcases k3 with k3 | k3
          · cases k3
          · exact (size_readLoop len n k3).1 r h4
    · rcases M.bind_err h with h1 | ⟨o, s1, h1, h2⟩
      · exact (size_sysRead len).err h1 hs
      · have k1 := (size_sysRead len).ok h1 hs
        cases o with
        | done b => cases h2
        | eintr x =>
          rcases M.bind_err h2 with h3 | ⟨o, s2, h3, h4⟩
          · exact (takeSignal_err h3).elim
          · obtain ⟨k2, k3⟩ := size_takeSignal h3 k1
            cases o with
            | some sig => cases h4
            | none =>
              rcases k3 with k3 | k3
              · cases k3
              · exact (size_readLoop len n k3).2 e h4

theorem size_readInput {z : Size} (env : REnv) (len : Nat) (t : Option Nat) {s s' : US} (hs : Heeds k0 z s) :
    (∀ r, readInput env len t s = .ok r s' → SizeRead k0 z r s') ∧
    (∀ e, readInput env len t s = .err e s' → Heeds k0 z s') := by
  have took : ∀ {s1 s2 : US} {o : Option Signal} {sig : Signal}, Heeds k0 z s1 → takeSignal s1 = .ok o s2 →
      o = some sig → SizeRead k0 z (.event (.signal sig)) s2 := by
    intro s1 s2 o sig h1 h2 e
    obtain ⟨k2, k3⟩ := size_takeSignal h2 h1
    subst e
    rcases k3 with k3 | k3
    · cases k3; exact ⟨k2, Or.inl rfl⟩
    · exact ⟨k2, Or.inr k3⟩
  have notook : ∀ {s1 s2 : US}, Heeds k0 z s1 → takeSignal s1 = .ok none s2 → Heeds k0 z s2 := by
    intro s1 s2 h1 h2
    rcases (size_takeSignal h2 h1).2 with k | k
    · cases k
    · exact k
  refine ⟨fun r h => ?_, fun e h => ?_⟩
  · obtain ⟨o, s1, h1, h2⟩ := M.bind_ok h
    cases o with
    | some sig => cases h2; exact took hs h1 rfl
    | none =>
      have k1 := notook hs h1
      obtain ⟨b, s2, h3, h4⟩ := M.bind_ok h2
      have k2 := (size_waitEvent env t).ok h3 k1
      cases b with
      | false => cases h4; exact ⟨k2.1, Or.inr k2⟩
      | true =>
        rw [if_pos rfl] at h4
        obtain ⟨o, s3, h5, h6⟩ := M.bind_ok h4
        cases o with
        | some sig => cases h6; exact took k2 h5 rfl
        | none => exact (size_readLoop len _ (notook k2 h5)).1 r h6
  · rcases M.bind_err h with h1 | ⟨o, s1, h1, h2⟩
    · exact (takeSignal_err h1).elim
    cases o with
    | some sig => cases h2
    | none =>
      have k1 := notook hs h1
      rcases M.bind_err h2 with h3 | ⟨b, s2, h3, h4⟩
      · exact (size_waitEvent env t).err h3 k1
      have k2 := (size_waitEvent env t).ok h3 k1
      cases b with
      | false => cases h4
      | true =>
        rw [if_pos rfl] at h4
        rcases M.bind_err h4 with h5 | ⟨o, s3, h5, h6⟩
        · exact (takeSignal_err h5).elim
        cases o with
        | some sig => cases h6
        | none => exact (size_readLoop len _ (notook k2 h5)).2 e h6

theorem Alert.like {s s' : US} (h : Alert k0 s) (h1 : s'.last = s.last) (h2 : s'.seen = s.seen)
    (h3 : s'.act = s.act) (h4 : s'.sched = s.sched) : Alert k0 s' := by
  refine ⟨by rw [h1, h2]; exact h.record, by rw [h3]; exact h.ours, ?_, by rw [h2]; exact h.grown⟩
  unfold WinchSent
  rw [h4]
  exact h.sent

theorem size_readIntoBuffer {z : Size} (env : REnv) (t : Option Nat) {s s' : US} (hs : Heeds k0 z s) :
    (∀ r, readIntoBuffer env t s = .ok r s' → SizeRead k0 z r s') ∧
    (∀ e, readIntoBuffer env t s = .err e s' → Heeds k0 z s') := by
  have h0 : Heeds k0 z { s with inBuf := [] } := hs.like rfl rfl rfl rfl rfl
  have e0 : readIntoBuffer env t s =
      match readInput env (env.spare s.inBuf.length) t { s with inBuf := [] } with
      | .ok (.raw b) s' => .ok (.raw b) { s' with inBuf := s.inBuf ++ b }
      | .ok r s' => .ok r { s' with inBuf := s.inBuf }
      | .err e s' => .err e { s' with inBuf := s.inBuf }
      | .stop w => .stop w := rfl
  rw [e0]
  have put : ∀ {r : InRes} {s1 : US} (b : Bytes), SizeRead k0 z r s1 → SizeRead k0 z r { s1 with inBuf := b } := by
    intro r s1 b h
    exact ⟨h.1.like rfl rfl rfl rfl, h.2.imp id fun k => k.like rfl rfl rfl rfl rfl⟩
  cases hr : readInput env (env.spare s.inBuf.length) t { s with inBuf := [] } with
  | stop w => exact ⟨fun r h => (by cases h), fun e h => (by cases h)⟩
  | err e s1 =>
    refine ⟨fun r h => (by cases h), fun x h => ?_⟩
    cases h
    exact ((size_readInput env _ t h0).2 e hr).like rfl rfl rfl rfl rfl
  | ok a s1 =>
    have k := (size_readInput env _ t h0).1 a hr
    refine ⟨fun r h => ?_, fun x h => by cases a <;> cases h⟩
    cases a with
    | raw b => cases h; exact put _ k
    | nothing => cases h; exact put _ k
    | event ev => cases h; exact put _ k

theorem size_tryRead {z : Size} (env : REnv) : Keeps (HeedsOn k0 z) (tryReadM env) := by
  refine Keeps.getS.bind fun s => ?_
  split
  · exact Keeps.panicM
  · exact Keeps.throwIo _
  · exact Keeps.pure _
  · exact (Keeps.modifyS fun s h => h.like rfl rfl rfl rfl rfl).bind fun _ => Keeps.pure _

/-! ## Asking for the size -/

theorem alert_tick {r : SysRes} {s s' : US} (h : tick s = .ok r s') (hs : Alert k0 s) : Alert k0 s' := by
  unfold tick at h
  cases e : s.sched with
  | nil => rw [e] at h; cases h
  | cons st rest => rw [e] at h; cases h; exact alert_deliverAll _ (hs.advance e)

theorem handle_sized {env : REnv} {s s' : US} (hs : Alert k0 s) :
    (∀ o, handleSignal env .resize s = .ok o s' → Alert k0 s' ∧ o = some (.resize s'.size)) ∧
    (∀ e, handleSignal env .resize s = .err e s' → Alert k0 s' ∧ e = .os) := by
  refine ⟨fun o h => ?_, fun e h => ?_⟩
  · obtain ⟨sz, s1, h1, h2⟩ := M.bind_ok h
    cases h2
    obtain ⟨s2, h3, _, w, rfl⟩ := withWriter_ok h1
    obtain ⟨_, s3, h4, h5⟩ := M.bind_ok h3
    obtain ⟨_, s4, h6, h7⟩ := M.bind_ok h5
    cases h6
    cases h7
    refine ⟨?_, rfl⟩
    obtain ⟨r, s5, h8, h9⟩ := M.bind_ok h4
    have k := alert_tick h8 hs
    cases r with
    | ok n => cases h9; exact k.like rfl rfl rfl rfl
    | eintr d e =>
      obtain ⟨_, s6, _, h10⟩ := M.bind_ok h9
      cases h10
    | fail => cases h9
  · rcases M.bind_err h with h1 | ⟨_, s1, _, h2⟩
    swap
    · cases h2
    obtain ⟨s2, h3, _, w, rfl⟩ := withWriter_err h1
    rcases M.bind_err h3 with h4 | ⟨_, s3, _, h5⟩
    swap
    · rcases M.bind_err h5 with h6 | ⟨_, s4, _, h7⟩
      · cases h6
      · cases h7
    rcases M.bind_err h4 with h8 | ⟨r, s5, h8, h9⟩
    · unfold tick at h8
      split at h8 <;> cases h8
    have k := alert_tick h8 hs
    cases r with
    | ok n => cases h9
    | eintr d x =>
      rcases M.bind_err h9 with h10 | ⟨_, s6, h10, h11⟩
      · cases h10
      · cases h10
        cases h11
        exact ⟨(alert_deliverAll d k).like rfl rfl rfl rfl, rfl⟩
    | fail => cases h9; exact ⟨k.like rfl rfl rfl rfl, rfl⟩

/-! ## Whole reads -/

theorem size_readEvent {z : Size} (env : REnv) (t : Option Nat) {s s' : US} (hs : Heeds k0 z s) :
    (∀ o, readEvent env t s = .ok o s' → Alert k0 s' ∧ (o = some (.resize s'.size) ∨ Known k0 z s')) ∧
    (∀ e, readEvent env t s = .err e s' → Alert k0 s' ∧ (e = .os ∨ Known k0 z s')) := by
  refine ⟨fun o h => ?_, fun e h => ?_⟩
  · obtain ⟨o1, s1, h1, h2⟩ := M.bind_ok h
    have k1 := (size_tryRead env).ok h1 hs
    cases o1 with
    | some ev => cases h2; exact ⟨k1.1, Or.inr k1.2⟩
    | none =>
      obtain ⟨r, s2, h3, h4⟩ := M.bind_ok h2
      obtain ⟨k2, k3⟩ := (size_readIntoBuffer env t k1).1 r h3
      rcases k3 with rfl | k3
      · obtain ⟨a, b⟩ := (handle_sized k2).1 o h4
        exact ⟨a, Or.inl b⟩
      cases r with
      | raw b =>
        have := (size_tryRead env).ok h4 k3
        exact ⟨this.1, Or.inr this.2⟩
      | nothing => cases h4; exact ⟨k2, Or.inr k3.2⟩
      | event ev =>
        cases ev with
        | signal sig =>
          by_cases hr : sig = .resize
          · subst hr
            obtain ⟨a, b⟩ := (handle_sized k2).1 o h4
            exact ⟨a, Or.inl b⟩
          · have := (size_handle env sig hr).ok h4 k3
            exact ⟨this.1, Or.inr this.2⟩
        | _ => cases h4; exact ⟨k2, Or.inr k3.2⟩
  · rcases M.bind_err h with h1 | ⟨o1, s1, h1, h2⟩
    · have := (size_tryRead env).err h1 hs
      exact ⟨this.1, Or.inr this.2⟩
    have k1 := (size_tryRead env).ok h1 hs
    cases o1 with
    | some ev => cases h2
    | none =>
      rcases M.bind_err h2 with h3 | ⟨r, s2, h3, h4⟩
      · have := (size_readIntoBuffer env t k1).2 e h3
        exact ⟨this.1, Or.inr this.2⟩
      obtain ⟨k2, k3⟩ := (size_readIntoBuffer env t k1).1 r h3
      rcases k3 with rfl | k3
      · obtain ⟨a, b⟩ := (handle_sized k2).2 e h4
        exact ⟨a, Or.inl b⟩
      cases r with
      | raw b =>
        have := (size_tryRead env).err h4 k3
        exact ⟨this.1, Or.inr this.2⟩
      | nothing => cases h4
      | event ev =>
        cases ev with
        | signal sig =>
          by_cases hr : sig = .resize
          · subst hr
            obtain ⟨a, b⟩ := (handle_sized k2).2 e h4
            exact ⟨a, Or.inl b⟩
          · have := (size_handle env sig hr).err h4 k3
            exact ⟨this.1, Or.inr this.2⟩
        | _ => cases h4

theorem size_readRaw {z : Size} (env : REnv) (n : Nat) (t : Option Nat) {s s' : US} (hs : Heeds k0 z s) :
    (∀ o, readRaw env n t s = .ok o s' → Alert k0 s' ∧ (o = .event (.resize s'.size) ∨ Known k0 z s')) ∧
    (∀ e, readRaw env n t s = .err e s' → Alert k0 s' ∧ (e = .os ∨ Known k0 z s')) := by
  refine ⟨fun o h => ?_, fun e h => ?_⟩
  · obtain ⟨_, s1, h1, h2⟩ := M.bind_ok h
    cases h1
    dsimp only at h2
    by_cases hb : s.inBuf ≠ []
    · rw [if_pos hb] at h2
      obtain ⟨_, s2, h3, h4⟩ := M.bind_ok h2
      cases h3
      cases h4
      have := hs.like (s' := { s with inBuf := s.inBuf.drop (min n s.inBuf.length) }) rfl rfl rfl rfl rfl
      exact ⟨this.1, Or.inr this.2⟩
    · rw [if_neg hb] at h2
      obtain ⟨r, s2, h3, h4⟩ := M.bind_ok h2
      obtain ⟨k2, k3⟩ := (size_readInput env n t hs).1 r h3
      have resize : r = .event (.signal .resize) → Alert k0 s' ∧ (o = .event (.resize s'.size) ∨ Known k0 z s') := by
        rintro rfl
        obtain ⟨o1, s3, h5, h6⟩ := M.bind_ok h4
        obtain ⟨a, b⟩ := (handle_sized k2).1 o1 h5
        subst b
        cases h6
        exact ⟨a, Or.inl rfl⟩
      rcases k3 with hr | k3
      · exact resize hr
      cases r with
      | raw b => cases h4; exact ⟨k2, Or.inr k3.2⟩
      | nothing => cases h4; exact ⟨k2, Or.inr k3.2⟩
      | event ev =>
        cases ev with
        | signal sig =>
          by_cases hr : sig = .resize
          · exact resize (by rw [hr])
          · obtain ⟨o1, s3, h5, h6⟩ := M.bind_ok h4
            have := (size_handle env sig hr).ok h5 k3
            cases o1 with
            | none => cases h6; exact ⟨this.1, Or.inr this.2⟩
            | some ev => cases h6; exact ⟨this.1, Or.inr this.2⟩
        | _ => cases h4; exact ⟨k2, Or.inr k3.2⟩
  · rcases M.bind_err h with h1 | ⟨_, s1, h1, h2⟩
    · cases h1
    cases h1
    dsimp only at h2
    by_cases hb : s.inBuf ≠ []
    · rw [if_pos hb] at h2
      rcases M.bind_err h2 with h3 | ⟨_, s2, h3, h4⟩
      · cases h3
      · cases h4
    · rw [if_neg hb] at h2
      rcases M.bind_err h2 with h3 | ⟨r, s2, h3, h4⟩
      · have := (size_readInput env n t hs).2 e h3
        exact ⟨this.1, Or.inr this.2⟩
      obtain ⟨k2, k3⟩ := (size_readInput env n t hs).1 r h3
      have resize : r = .event (.signal .resize) → Alert k0 s' ∧ (e = .os ∨ Known k0 z s') := by
        rintro rfl
        rcases M.bind_err h4 with h5 | ⟨o1, s3, h5, h6⟩
        · obtain ⟨a, b⟩ := (handle_sized k2).2 e h5
          exact ⟨a, Or.inl b⟩
        · cases o1 <;> cases h6
      rcases k3 with hr | k3
      · exact resize hr
      cases r with
      | raw b => cases h4
      | nothing => cases h4
      | event ev =>
        cases ev with
        | signal sig =>
          by_cases hr : sig = .resize
          · exact resize (by rw [hr])
          · rcases M.bind_err h4 with h5 | ⟨o1, s3, h5, h6⟩
            · have := (size_handle env sig hr).err h5 k3
              exact ⟨this.1, Or.inr this.2⟩
            · cases o1 <;> cases h6
        | _ => cases h4

/-! ## Calls on a screen -/

/-- Whatever the outcome, the buffer's size is `z`. -/
def OfSize (z : Size) (o : Outcome Scr) : Prop := ∀ x, o.state = some x → x.buf.size = z

theorem OfSize.content {b : Buf} {o : Outcome Scr} (h : SameContent b o) : OfSize b.size o := by
  intro x e
  rw [h x e]
  rfl

theorem ofSize_drop {u : UEnv} {env : WEnv} (x : Scr) : OfSize x.buf.size (guardDrop u env x) := by
  have h := OfSize.content (keeps_refresh u env x)
  unfold guardDrop
  cases e : x.refresh u env with
  | ok y =>
    have hy : y.buf.size = x.buf.size := h y (by rw [e]; rfl)
    rw [← hy]
    exact OfSize.content (keeps_onW _ rfl)
  | err i y =>
    have hy : y.buf.size = x.buf.size := h y (by rw [e]; rfl)
    rw [← hy]
    exact OfSize.content (keeps_onW _ rfl)
  | stop w => intro y hy; cases hy

theorem ofSize_refreshCall {u : UEnv} {env : WEnv} (x : Scr) : OfSize x.buf.size (refreshCall u env x) := by
  have h := OfSize.content (keeps_refresh u env x)
  unfold refreshCall
  cases e : x.refresh u env with
  | ok y =>
    have hy : y.buf.size = x.buf.size := h y (by rw [e]; rfl)
    rw [← hy]
    exact ofSize_drop y
  | err i y =>
    have hy : y.buf.size = x.buf.size := h y (by rw [e]; rfl)
    rw [← hy]
    have hd := ofSize_drop (u := u) (env := env) y
    show OfSize y.buf.size (guardDrop u env y >>? fun s'' => .err i s'')
    cases e2 : guardDrop u env y with
    | ok v => rw [e2] at hd; exact fun x' hx' => by cases hx'; exact hd _ rfl
    | err j v => rw [e2] at hd; exact hd
    | stop w => intro v hv; cases hv
  | stop w => intro y hy; cases hy

theorem ofSize_session {u : UEnv} (hu : SpaceOk u) {env : WEnv} : ∀ (ops : List GOp) (x : Scr),
    (∀ z, .draw (.resize z) ∉ ops) → OfSize x.buf.size (guardSession u env ops x)
  | [], x, _ => ofSize_drop x
  | op :: ops, x, h => by
    have hop : OfSize x.buf.size (op.run u env x) := by
      cases op with
      | draw o =>
        intro y hy
        unfold GOp.run at hy
        cases e : o.run u x.buf with
        | none => simp only [e] at hy; cases hy
        | some b =>
          simp only [e] at hy
          cases hy
          exact (op_effect hu (fun z hz => h z (by rw [hz]; exact List.mem_cons_self)) e).size
      | refresh => exact OfSize.content (keeps_refresh u env x)
      | setCursorMode m => exact OfSize.content (keeps_onW _ rfl)
    have next : ∀ y, y.buf.size = x.buf.size → OfSize x.buf.size (guardSession u env ops y) := by
      intro y hy
      rw [← hy]
      exact ofSize_session hu ops y fun z hz => h z (List.mem_cons_of_mem _ hz)
    unfold guardSession
    cases e : op.run u env x with
    | ok y => exact next y (hop y (by rw [e]; rfl))
    | err i y => exact next y (hop y (by rw [e]; rfl))
    | stop w => intro y hy; cases hy

theorem size_wret {z : Size} {o : Outcome Scr} (ho : OfSize z o) {s s' : US} {d : SData} {r : URet}
    (hs : Heeds k0 z s) (e : wret s o = some (r, d, s')) : Heeds k0 d.buf.size s' := by
  cases o with
  | ok x =>
    cases e
    rw [show x.toSData.buf.size = z from ho x rfl]
    exact hs.like rfl rfl rfl rfl rfl
  | err i x =>
    cases e
    rw [show x.toSData.buf.size = z from ho x rfl]
    exact hs.like rfl rfl rfl rfl rfl
  | stop w => cases e

theorem size_screenReadEvent {env : REnv} {t : Option Nat} {d d' : SData} {s s' : US} {r : URet}
    (hs : Heeds k0 d.buf.size s) (e : rret .event d (screenReadEvent env t d s) = some (r, d', s'))
    (hr : r ≠ .err .os) : Heeds k0 d'.buf.size s' := by
  cases h : screenReadEvent env t d s with
  | stop w => rw [h] at e; cases e
  | err i s1 =>
    rw [h] at e
    cases e
    rcases M.bind_err h with h1 | ⟨o, s2, h1, h2⟩
    · obtain ⟨a, b⟩ := (size_readEvent env t hs).2 i h1
      rcases b with rfl | b
      · exact (hr rfl).elim
      · exact ⟨a, b⟩
    · exfalso
      rcases o with _ | ev
      · cases h2
      cases ev with
      | resize z =>
        dsimp only at h2
        cases hd : d.updateSize z with
        | none => rw [hd] at h2; cases h2
        | some d2 => rw [hd] at h2; cases h2
      | key k => cases h2
      | mouse k => cases h2
      | signal k => cases h2
      | raw k => cases h2
      | noEvent => cases h2
  | ok a s1 =>
    rw [h] at e
    obtain ⟨o1, d1⟩ := a
    cases e
    obtain ⟨o, s2, h1, h2⟩ := M.bind_ok h
    obtain ⟨k1, k2⟩ := (size_readEvent env t hs).1 o h1
    have plain : (∀ z, o ≠ some (.resize z)) → Heeds k0 d.buf.size s2 := by
      intro ho
      rcases k2 with k2 | k2
      · exact (ho _ k2).elim
      · exact ⟨k1, k2⟩
    rcases o with _ | ev
    · cases h2; exact plain (fun z h => by cases h)
    cases ev with
    | resize z =>
      dsimp only at h2
      cases hd : d.updateSize z with
      | none => rw [hd] at h2; cases h2
      | some d2 =>
        rw [hd] at h2
        cases h2
        exact ⟨k1, Or.inl ((updateSize_some hd).1.trans (readEvent_resize h1))⟩
    | key k => cases h2; exact plain (fun z h => by cases h)
    | mouse k => cases h2; exact plain (fun z h => by cases h)
    | signal k => cases h2; exact plain (fun z h => by cases h)
    | raw k => cases h2; exact plain (fun z h => by cases h)
    | noEvent => cases h2; exact plain (fun z h => by cases h)

theorem size_screenReadRaw {env : REnv} {n : Nat} {t : Option Nat} {d d' : SData} {s s' : US} {r : URet}
    (hs : Heeds k0 d.buf.size s) (e : rret InRes.ret d (screenReadRaw env n t d s) = some (r, d', s'))
    (hr : r ≠ .err .os) : Heeds k0 d'.buf.size s' := by
  cases h : screenReadRaw env n t d s with
  | stop w => rw [h] at e; cases e
  | err i s1 =>
    rw [h] at e
    cases e
    rcases M.bind_err h with h1 | ⟨o, s2, h1, h2⟩
    · obtain ⟨a, b⟩ := (size_readRaw env n t hs).2 i h1
      rcases b with rfl | b
      · exact (hr rfl).elim
      · exact ⟨a, b⟩
    · exfalso
      rcases o with _ | b | ev
      · cases h2
      · cases h2
      cases ev with
      | resize z =>
        dsimp only at h2
        cases hd : d.updateSize z with
        | none => rw [hd] at h2; cases h2
        | some d2 => rw [hd] at h2; cases h2
      | key k => cases h2
      | mouse k => cases h2
      | signal k => cases h2
      | raw k => cases h2
      | noEvent => cases h2
  | ok a s1 =>
    rw [h] at e
    obtain ⟨o1, d1⟩ := a
    cases e
    obtain ⟨o, s2, h1, h2⟩ := M.bind_ok h
    obtain ⟨k1, k2⟩ := (size_readRaw env n t hs).1 o h1
    have plain : (∀ z, o ≠ .event (.resize z)) → Heeds k0 d.buf.size s2 := by
      intro ho
      rcases k2 with k2 | k2
      · exact (ho _ k2).elim
      · exact ⟨k1, k2⟩
    cases o with
    | nothing => cases h2; exact plain (fun z h => by cases h)
    | raw b => cases h2; exact plain (fun z h => by cases h)
    | event ev =>
      cases ev with
      | resize z =>
        dsimp only at h2
        cases hd : d.updateSize z with
        | none => rw [hd] at h2; cases h2
        | some d2 =>
          rw [hd] at h2
          cases h2
          exact ⟨k1, Or.inl ((updateSize_some hd).1.trans (readRaw_resize h1))⟩
      | key k => cases h2; exact plain (fun z h => by cases h)
      | mouse k => cases h2; exact plain (fun z h => by cases h)
      | signal k => cases h2; exact plain (fun z h => by cases h)
      | raw k => cases h2; exact plain (fun z h => by cases h)
      | noEvent => cases h2; exact plain (fun z h => by cases h)

theorem size_call {u : UEnv} (hu : SpaceOk u) {env : REnv} {op : ScrOp} {d d' : SData} {s s' : US} {r : URet}
    (hp : (SizeEv.call op).Public) (hs : Heeds k0 d.buf.size s) (e : op.run u env d s = some (r, d', s'))
    (hr : Reading op → r ≠ .err .os) : Heeds k0 d'.buf.size s' := by
  cases op with
  | draw o =>
    simp only [ScrOp.run, Option.map_eq_some_iff] at e
    obtain ⟨b, e1, e2⟩ := e
    cases e2
    show Heeds k0 b.size s
    rw [(op_effect hu hp e1).size]
    exact hs
  | refresh => exact size_wret (ofSize_refreshCall _) hs e
  | setCursorMode m =>
    simp only [ScrOp.run, Option.map_eq_some_iff] at e
    obtain ⟨⟨r1, s1⟩, e1, e2⟩ := e
    cases e2
    exact keeps_ret (keeps_withWriter (R := HeedsOn k0 d.buf.size) env (keeps_liftW _)) e1 hs
  | guard ops => exact size_wret (ofSize_session hu ops _ hp) hs e
  | waitEvent t =>
    simp only [ScrOp.run, Option.map_eq_some_iff] at e
    obtain ⟨⟨r1, s1⟩, e1, e2⟩ := e
    cases e2
    exact keeps_ret (size_waitEvent env t) e1 hs
  | readEvent t => exact size_screenReadEvent hs e (hr trivial)
  | readRaw n t => exact size_screenReadRaw hs e (hr trivial)

theorem size_run {u : UEnv} (hu : SpaceOk u) {env : REnv} : ∀ (es : List SizeEv) {d d' : SData} {s s' : US}
    {rs : List (ScrOp × URet)}, (∀ ev ∈ es, ev.Public) → Heeds k0 d.buf.size s →
    runSize u env es d s = some (rs, d', s') →
    (∀ x ∈ rs, Reading x.1 → x.2 ≠ .err .os) → Heeds k0 d'.buf.size s'
  | [], _, _, _, _, _, _, hs, e, _ => by cases e; exact hs
  | .window z :: es, d, d', s, s', rs, hp, hs, e, hr => by
    refine size_run hu es (fun ev he => hp ev (List.mem_cons_of_mem _ he)) ?_ e hr
    have ha : Alert k0 { s with size := z } := hs.1.like rfl rfl rfl rfl
    exact ⟨ha.deliver _, Or.inr (deliver_winch ha)⟩
  | .call op :: es, d, d', s, s', rs, hp, hs, e, hr => by
    simp only [runSize, Option.bind_eq_bind, Option.bind_eq_some_iff] at e
    obtain ⟨⟨r, d1, s1⟩, e1, ⟨rs1, d2, s2⟩, e2, e3⟩ := e
    cases e3
    refine size_run hu es (fun ev he => hp ev (List.mem_cons_of_mem _ he)) ?_ e2
      fun x hx => hr x (List.mem_cons_of_mem _ hx)
    exact size_call hu (hp _ List.mem_cons_self) hs e1 (hr _ List.mem_cons_self)

/-! ## Opening -/

/-- The record agrees with the pending signal, and no step is new. -/
def RecordOn (s s' : US) : Prop :=
  ((∀ g : Sig, s.last = g.num → s.seen.getLast? = some g) →
    ∀ g : Sig, s'.last = g.num → s'.seen.getLast? = some g) ∧ ∀ st ∈ s'.sched, st ∈ s.sched

theorem RecordOn.same {s s' : US} (h1 : s'.last = s.last) (h2 : s'.seen = s.seen) (h3 : s'.sched = s.sched) :
    RecordOn s s' := by
  refine ⟨?_, ?_⟩
  · rw [h1, h2]; exact fun h => h
  · rw [h3]; exact fun _ h => h

instance : InOnly RecordOn where
  refl _ := RecordOn.same rfl rfl rfl
  trans h1 h2 := ⟨fun h => h2.1 (h1.1 h), fun st h => h1.2 st (h2.2 st h)⟩
  dl s g := by
    unfold deliver
    split
    · refine ⟨fun _ g' e => ?_, fun _ h => h⟩
      cases sig_num_inj e
      simp
    · exact RecordOn.same rfl rfl rfl
  sc s st rest e := ⟨fun h => h, fun x hx => e ▸ List.mem_cons_of_mem _ hx⟩
  wt _ _ := RecordOn.same rfl rfl rfl
  updW _ _ := RecordOn.same rfl rfl rfl
  tio _ _ := RecordOn.same rfl rfl rfl
  act _ _ := RecordOn.same rfl rfl rfl
  cfg _ _ _ := RecordOn.same rfl rfl rfl

theorem record_new {env : REnv} {cfg : PrepareConfig} {scr : ScreenU} {s0 s1 : US}
    (h : screenNew env cfg s0 = .ok scr s1) : RecordOn s0 s1 := by
  obtain ⟨sa, sb, k1, k2, k3, -⟩ := screenNew_ok h
  exact Frame.trans (Frame.trans ((keeps_termSize (R := RecordOn) env).ok k1)
    ((keeps_prepare (R := RecordOn) env cfg).ok k2)) ((keeps_termEnter (R := RecordOn) env).ok k3)

end Mortal
