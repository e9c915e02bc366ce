import Verif.Lemmas.Input
import Verif.Spec.Unix

/-! # Lemmas about the Unix reader: what each call leaves alone -/

namespace Mortal
open Spec

/-! ## Inversion of `do` blocks -/

variable {α β : Type}

@[simp] theorem M.pure_apply (a : α) (s : US) : (pure a : M α) s = .ok a s := rfl

theorem M.bind_apply (m : M α) (f : α → M β) (s : US) :
    (m >>= f) s = match m s with
      | .ok a s' => f a s'
      | .err e s' => .err e s'
      | .stop w => .stop w := rfl

theorem M.bind_ok {m : M α} {f : α → M β} {s s' : US} {b : β} (h : (m >>= f) s = .ok b s') :
    ∃ a s1, m s = .ok a s1 ∧ f a s1 = .ok b s' := by
  rw [M.bind_apply] at h
  cases hm : m s with
  | ok a s1 => rw [hm] at h; exact ⟨a, s1, rfl, h⟩
  | err e s1 => rw [hm] at h; cases h
  | stop w => rw [hm] at h; cases h

theorem M.bind_err {m : M α} {f : α → M β} {s s' : US} {e : IoErr} (h : (m >>= f) s = .err e s') :
    m s = .err e s' ∨ ∃ a s1, m s = .ok a s1 ∧ f a s1 = .err e s' := by
  rw [M.bind_apply] at h
  cases hm : m s with
  | ok a s1 => rw [hm] at h; exact Or.inr ⟨a, s1, rfl, h⟩
  | err e s1 => rw [hm] at h; cases h; exact Or.inl rfl
  | stop w => rw [hm] at h; cases h

/-! ## Relations kept by code -/

/-- The state after `m` is related to the state before, whatever the result. -/
def Keeps (R : US → US → Prop) (m : M α) : Prop :=
  ∀ s, match m s with
    | .ok _ s' => R s s'
    | .err _ s' => R s s'
    | .stop _ => True

/-- A relation suitable for framing. -/
class Frame (R : US → US → Prop) : Prop where
  refl : ∀ s, R s s
  trans : ∀ {a b c}, R a b → R b c → R a c

theorem Keeps.pure {R : US → US → Prop} [Frame R] (a : α) : Keeps R (pure a) :=
  fun s => Frame.refl s

theorem Keeps.bind {R : US → US → Prop} [Frame R] {m : M α} {f : α → M β} (hm : Keeps R m)
    (hf : ∀ a, Keeps R (f a)) : Keeps R (m >>= f) := by
  intro s
  have h1 := hm s
  rw [M.bind_apply]
  cases hc : m s with
  | ok a s1 =>
    rw [hc] at h1
    have h2 := hf a s1
    dsimp only at h1 ⊢
    generalize f a s1 = r at h2 ⊢
    cases r with
    | ok b s2 => exact Frame.trans h1 h2
    | err e s2 => exact Frame.trans h1 h2
    | stop w => trivial
  | err e s1 => rw [hc] at h1; exact h1
  | stop w => trivial

theorem Keeps.throwIo {R : US → US → Prop} [Frame R] (e : IoErr) : Keeps R (throwIo (α := α) e) :=
  fun s => Frame.refl s

theorem Keeps.panicM {R : US → US → Prop} : Keeps R (panicM (α := α)) := fun _ => trivial

theorem Keeps.stop {R : US → US → Prop} (w : Stop) : Keeps R (fun _ => Res.stop (α := α) w) :=
  fun _ => trivial

theorem Keeps.getS {R : US → US → Prop} [Frame R] : Keeps R getS := fun s => Frame.refl s

theorem Keeps.modifyS {R : US → US → Prop} {f : US → US} (h : ∀ s, R s (f s)) :
    Keeps R (modifyS f) := fun s => h s

theorem Keeps.ok {R : US → US → Prop} {m : M α} (h : Keeps R m) {s s' : US} {a : α}
    (e : m s = .ok a s') : R s s' := by
  have := h s; rw [e] at this; exact this

theorem Keeps.err {R : US → US → Prop} {m : M α} (h : Keeps R m) {s s' : US} {x : IoErr}
    (e : m s = .err x s') : R s s' := by
  have := h s; rw [e] at this; exact this

/-! ## What signal delivery changes -/

theorem deliver_eq (s : US) (sig : Sig) :
    ∃ l sn, deliver s sig = { s with last := l, seen := sn } := by
  unfold deliver
  split
  · exact ⟨_, _, rfl⟩
  · exact ⟨s.last, s.seen, rfl⟩

theorem deliverAll_eq (l : List Sig) : ∀ s : US,
    ∃ x sn, deliverAll s l = { s with last := x, seen := sn } := by
  induction l with
  | nil => intro s; exact ⟨s.last, s.seen, rfl⟩
  | cons a l ih =>
    intro s
    obtain ⟨x, sn, h⟩ := deliver_eq s a
    obtain ⟨y, sn', h'⟩ := ih (deliver s a)
    refine ⟨y, sn', ?_⟩
    show deliverAll (deliver s a) l = _
    rw [h', h]

/-- A relation that does not mind time passing and signals arriving. -/
class Ticks (R : US → US → Prop) : Prop extends Frame R where
  dl : ∀ s sig, R s (deliver s sig)
  sc : ∀ s st rest, s.sched = st :: rest → R s (s.advance st rest)
  wt : ∀ s n, R s { s with waited := n }

/-- Nor signals being taken. -/
class SigFree (R : US → US → Prop) : Prop extends Ticks R where
  clr : ∀ s, R s { s with last := 0 }

theorem Ticks.deliverAll {R : US → US → Prop} [Ticks R] (l : List Sig) : ∀ s : US,
    R s (deliverAll s l) := by
  induction l with
  | nil => exact fun s => Frame.refl s
  | cons a l ih => exact fun s => Frame.trans (Ticks.dl s a) (ih (deliver s a))

theorem keeps_tick {R : US → US → Prop} [Ticks R] : Keeps R tick := by
  intro s
  unfold tick
  cases h : s.sched with
  | nil => trivial
  | cons st rest => exact Frame.trans (Ticks.sc s st rest h) (Ticks.deliverAll st.before _)

theorem keeps_getSignal {R : US → US → Prop} [Ticks R] : Keeps R getSignal :=
  keeps_tick.bind fun _ => Keeps.getS.bind fun _ => Keeps.pure _

theorem keeps_takeSignal {R : US → US → Prop} [SigFree R] : Keeps R takeSignal :=
  keeps_tick.bind fun _ => Keeps.getS.bind fun _ =>
    (Keeps.modifyS fun s => SigFree.clr s).bind fun _ => Keeps.pure _

theorem keeps_sysCall {R : US → US → Prop} [Ticks R] : Keeps R sysCall := by
  refine keeps_tick.bind fun r => ?_
  cases r with
  | ok n => exact Keeps.pure _
  | eintr d e =>
    exact (Keeps.modifyS fun s => Ticks.deliverAll d s).bind fun _ => Keeps.throwIo _
  | fail => exact Keeps.throwIo _

theorem keeps_select {R : US → US → Prop} [Ticks R] (t : Option Nat) :
    Keeps R (sysSelect t) := by
  refine keeps_tick.bind fun r => ?_
  match r with
  | .ok 0 =>
    cases t with
    | none => exact Keeps.stop _
    | some t =>
      exact (Keeps.modifyS fun s => Ticks.wt s _).bind fun _ =>
        Keeps.pure _
  | .ok (n + 1) => exact Keeps.pure _
  | .eintr d e =>
    refine (Keeps.modifyS fun s => ?_).bind fun _ => Keeps.pure _
    exact Frame.trans (Ticks.wt s _) (Ticks.deliverAll d _)
  | .fail => exact Keeps.throwIo _

theorem keeps_peekM {R : US → US → Prop} [Frame R] (env : REnv) (b : Bytes) :
    Keeps R (peekM env b) := by
  unfold peekM
  split
  · exact Keeps.panicM
  · exact Keeps.throwIo _
  · exact Keeps.pure _
  · exact Keeps.pure _

theorem keeps_waitLoop {R : US → US → Prop} [Ticks R] (n : Nat) : ∀ t, Keeps R (waitLoop n t) := by
  induction n with
  | zero => exact fun t => Keeps.stop _
  | succ n ih =>
    intro t
    refine (keeps_select t).bind fun r => ?_
    cases r with
    | done k => exact Keeps.pure _
    | eintr e =>
      refine keeps_getSignal.bind fun o => ?_
      cases o with
      | none => exact ih _
      | some x => exact Keeps.pure _

theorem Keeps.ofState {R : US → US → Prop} {f : US → M α} (h : ∀ s, Keeps R (f s)) :
    Keeps R (fun s => f s s) := fun s => h s s

theorem keeps_waitEvent {R : US → US → Prop} [Ticks R] (env : REnv) (t : Option Nat) :
    Keeps R (waitEvent env t) := by
  refine keeps_getSignal.bind fun o => ?_
  cases o with
  | some x => exact Keeps.pure _
  | none =>
    refine Keeps.getS.bind fun s => (keeps_peekM env _).bind fun o => ?_
    cases o with
    | some x => exact Keeps.pure _
    | none => exact Keeps.ofState fun s => keeps_waitLoop _ _

/-! ## Writer calls -/

/-- A relation that does not look at the writer either. -/
class WFree (R : US → US → Prop) : Prop extends Frame R where
  updW : ∀ s w, R s { s with w := w }

theorem keeps_liftW {R : US → US → Prop} [WFree R] (f : WS → Outcome WS) : Keeps R (liftW f) := by
  intro s
  unfold liftW
  cases f s.w with
  | ok w => exact WFree.updW s w
  | err e w => exact WFree.updW s w
  | stop r => trivial

theorem keeps_withWriter {R : US → US → Prop} [WFree R] (env : REnv) {m : M α} (h : Keeps R m) :
    Keeps R (withWriter env m) := by
  intro s
  have h1 := h s
  unfold withWriter
  cases hc : m s with
  | ok a s1 =>
    rw [hc] at h1
    have h2 : Keeps R (do dropWriter env.w; pure a : M α) :=
      (keeps_liftW _).bind fun _ => Keeps.pure _
    have h3 := h2 s1
    dsimp only
    generalize (do dropWriter env.w; pure a : M α) s1 = r at h3 ⊢
    cases r with
    | ok b s2 => exact Frame.trans h1 h3
    | err e s2 => exact Frame.trans h1 h3
    | stop w => trivial
  | err e s1 =>
    rw [hc] at h1
    have h2 : Keeps R (do dropWriter env.w; throwIo e : M α) :=
      (keeps_liftW _).bind fun _ => Keeps.throwIo _
    have h3 := h2 s1
    dsimp only
    generalize (do dropWriter env.w; throwIo e : M α) s1 = r at h3 ⊢
    cases r with
    | ok b s2 => exact Frame.trans h1 h3
    | err e s2 => exact Frame.trans h1 h3
    | stop w => trivial
  | stop w => trivial

/-! ## Relations that only look at input -/

/-- A relation that looks at the input side only. -/
class InOnly (R : US → US → Prop) : Prop extends Ticks R, WFree R where
  tio : ∀ s t, R s { s with tio := t }
  act : ∀ s t, R s { s with act := t }
  cfg : ∀ s r c, R s { s with report := r, resume := c }

variable {R : US → US → Prop} [InOnly R]

theorem keeps_tcgetattr : Keeps R tcgetattr :=
  keeps_sysCall.bind fun _ => Keeps.getS.bind fun _ => Keeps.pure _

theorem keeps_tcsetattr (t : Termios) : Keeps R (tcsetattr t) :=
  keeps_sysCall.bind fun _ => Keeps.modifyS fun s => InOnly.tio s t

theorem keeps_sigaction (sig : Sig) (d : Disp) : Keeps R (sigaction sig d) :=
  keeps_sysCall.bind fun _ => Keeps.getS.bind fun _ =>
    (Keeps.modifyS fun s => InOnly.act s _).bind fun _ => Keeps.pure _

theorem keeps_getWinsize : Keeps R getWinsize :=
  keeps_sysCall.bind fun _ => Keeps.getS.bind fun _ => Keeps.pure _

theorem keeps_termSize (env : REnv) : Keeps R (termSize env) := keeps_withWriter env keeps_getWinsize

theorem keeps_enableMouse (env : REnv) (b : Bool) : Keeps R (enableMouse env b) := by
  unfold enableMouse
  split
  · refine (keeps_liftW _).bind fun _ => Keeps.bind ?_ fun _ => Keeps.pure _
    split
    · exact keeps_liftW _
    · exact Keeps.pure _
  · exact Keeps.pure _

theorem keeps_enableKeypad (env : REnv) : Keeps R (enableKeypad env) := by
  unfold enableKeypad
  split
  · exact (keeps_liftW _).bind fun _ => Keeps.pure _
  · exact Keeps.pure _

theorem keeps_installIf (c : Bool) (sig : Sig) : Keeps R (installIf c sig) := by
  unfold installIf
  split
  · exact (keeps_sigaction _ _).bind fun _ => Keeps.pure _
  · exact Keeps.pure _

theorem keeps_prepareWithLock (env : REnv) (cfg : PrepareConfig) :
    Keeps R (prepareWithLock env cfg) := by
  refine keeps_tcgetattr.bind fun _ => Keeps.getS.bind fun _ => (keeps_tcsetattr _).bind fun _ =>
    Keeps.bind ?_ fun _ => Keeps.bind ?_ fun _ => (keeps_liftW _).bind fun _ =>
    (keeps_sigaction _ _).bind fun _ => (keeps_sigaction _ _).bind fun _ =>
    (keeps_installIf _ _).bind fun _ => (keeps_installIf _ _).bind fun _ =>
    (keeps_installIf _ _).bind fun _ => (Keeps.modifyS fun s => InOnly.cfg s _ _).bind fun _ =>
    Keeps.pure _
  · unfold mouseOn
    split
    · exact keeps_enableMouse env _
    · exact Keeps.pure _
  · unfold keypadOn
    split
    · exact keeps_enableKeypad env
    · exact Keeps.pure _

theorem keeps_prepare (env : REnv) (cfg : PrepareConfig) : Keeps R (prepare env cfg) :=
  keeps_withWriter env (keeps_prepareWithLock env cfg)

theorem keeps_restoreSig (sig : Sig) (o : Option Disp) : Keeps R (restoreSig sig o) := by
  unfold restoreSig
  split
  · exact (keeps_sigaction _ _).bind fun _ => Keeps.pure _
  · exact Keeps.pure _

theorem keeps_restore (env : REnv) (st : PrepareState) : Keeps R (restore env st) := by
  refine keeps_withWriter env ?_
  refine (Keeps.modifyS fun s => InOnly.cfg s s.report _).bind fun _ => Keeps.bind ?_ fun _ =>
    Keeps.bind ?_ fun _ => (keeps_liftW _).bind fun _ => (keeps_tcsetattr _).bind fun _ =>
    (keeps_restoreSig _ _).bind fun _ => (keeps_restoreSig _ _).bind fun _ =>
    (keeps_restoreSig _ _).bind fun _ => (keeps_restoreSig _ _).bind fun _ => keeps_restoreSig _ _
  · split
    · exact (keeps_liftW _).bind fun _ => keeps_liftW _
    · exact Keeps.pure _
  · split
    · exact keeps_liftW _
    · exact Keeps.pure _

theorem keeps_resume (env : REnv) : Keeps R (resumeM env) := by
  refine Keeps.getS.bind fun s => ?_
  split
  · exact (keeps_prepare env _).bind fun _ => Keeps.pure _
  · exact Keeps.pure _

theorem keeps_report (sig : Signal) : Keeps R (do
    if (← getS).report.contains sig then pure (some (Event.signal sig)) else pure none) := by
  refine Keeps.getS.bind fun s => ?_
  split <;> exact Keeps.pure _

theorem keeps_handleSignal (env : REnv) (sig : Signal) : Keeps R (handleSignal env sig) := by
  cases sig
  case «continue» => exact (keeps_resume env).bind fun _ => keeps_report _
  case resize => exact (keeps_termSize env).bind fun _ => Keeps.pure _
  all_goals exact keeps_report _

/-! ## The input side -/

/-- Nothing happened to the input. -/
def SameIo (s s' : US) : Prop :=
  s'.inBuf = s.inBuf ∧ s'.received = s.received ∧ s'.input = s.input

/-- The bytes `b` were received and are not in the buffer. -/
def Got (b : Bytes) (s s' : US) : Prop :=
  s'.inBuf = s.inBuf ∧ s'.received = s.received ++ b ∧ s.input = b ++ s'.input

theorem SameIo.deliver (s : US) (sig : Sig) : SameIo s (Mortal.deliver s sig) := by
  unfold Mortal.deliver
  split <;> exact ⟨rfl, rfl, rfl⟩

instance : InOnly SameIo where
  refl _ := ⟨rfl, rfl, rfl⟩
  trans h1 h2 := ⟨h2.1.trans h1.1, h2.2.1.trans h1.2.1, h2.2.2.trans h1.2.2⟩
  dl := SameIo.deliver
  sc _ _ _ _ := ⟨rfl, rfl, rfl⟩
  wt _ _ := ⟨rfl, rfl, rfl⟩
  updW _ _ := ⟨rfl, rfl, rfl⟩
  tio _ _ := ⟨rfl, rfl, rfl⟩
  act _ _ := ⟨rfl, rfl, rfl⟩
  cfg _ _ _ := ⟨rfl, rfl, rfl⟩

instance : SigFree SameIo where
  clr _ := ⟨rfl, rfl, rfl⟩

theorem Got.after {b : Bytes} {s s1 s' : US} (h : SameIo s s1) (h' : Got b s1 s') : Got b s s' :=
  ⟨h'.1.trans h.1, by rw [h'.2.1, h.2.1], by rw [← h.2.2, h'.2.2]⟩

theorem sysRead_io (len : Nat) (s : US) :
    match sysRead len s with
    | .ok (.done b) s' => Got b s s' ∧ b.length ≤ len
    | .ok (.eintr _) s' => SameIo s s'
    | .err _ s' => SameIo s s'
    | .stop _ => True := by
  unfold sysRead
  rw [M.bind_apply]
  have h := keeps_tick (R := SameIo) s
  cases ht : tick s with
  | err e s1 => rw [ht] at h; exact h
  | stop w => trivial
  | ok r s1 =>
    rw [ht] at h
    dsimp only
    cases r with
    | ok n =>
      refine ⟨⟨h.1, ?_, ?_⟩, ?_⟩
      · show s1.received ++ _ = _
        rw [h.2.1]
      · show s.input = s1.input.take _ ++ s1.input.drop _
        rw [List.take_append_drop, h.2.2]
      · rw [List.length_take]; omega
    | eintr d e =>
      exact Frame.trans (R := SameIo) (b := s1) h (Ticks.deliverAll (R := SameIo) d s1)
    | fail => exact h

/-- What `read_input` does to the input. -/
def InIo (s : US) : Res InRes → Prop
  | .ok (.raw b) s' => Got b s s'
  | .ok (.event (.signal _)) s' => SameIo s s'
  | .ok .nothing s' => SameIo s s'
  | .ok _ _ => False
  | .err _ s' => SameIo s s'
  | .stop _ => True

theorem InIo.after {s s1 : US} {r : Res InRes} (h : SameIo s s1) (h' : InIo s1 r) : InIo s r := by
  unfold InIo at h' ⊢
  split at h' <;> first
    | exact Got.after h h'
    | exact Frame.trans h h'
    | exact h'

theorem takeSignal_io {f : Option Signal → M InRes} (s : US)
    (hs : ∀ sig s1, SameIo s s1 → InIo s (f (some sig) s1))
    (hn : ∀ s1, SameIo s s1 → InIo s (f none s1)) : InIo s ((takeSignal >>= f) s) := by
  rw [M.bind_apply]
  have h := keeps_takeSignal (R := SameIo) s
  cases ht : takeSignal s with
  | err e s1 => rw [ht] at h; exact h
  | stop w => trivial
  | ok r s1 =>
    rw [ht] at h
    cases r with
    | none => exact hn s1 h
    | some sig => exact hs sig s1 h

theorem readLoop_io (len n : Nat) : ∀ s, InIo s (readLoop len n s) := by
  induction n with
  | zero => intro s; trivial
  | succ n ih =>
    intro s
    unfold readLoop
    rw [M.bind_apply]
    have h := sysRead_io len s
    cases hr : sysRead len s with
    | err e s1 => rw [hr] at h; exact h
    | stop w => trivial
    | ok r s1 =>
      rw [hr] at h
      cases r with
      | done b => exact h.1
      | eintr e =>
        refine InIo.after h (takeSignal_io s1 ?_ ?_)
        · exact fun sig s2 h2 => h2
        · exact fun s2 h2 => InIo.after h2 (ih s2)

theorem readInput_io (env : REnv) (len : Nat) (t : Option Nat) (s : US) :
    InIo s (readInput env len t s) := by
  refine takeSignal_io s (fun sig s1 h => h) fun s1 h => ?_
  dsimp only
  rw [M.bind_apply]
  have h1 := keeps_waitEvent (R := SameIo) env t s1
  cases hw : waitEvent env t s1 with
  | err e s2 => rw [hw] at h1; exact Frame.trans h h1
  | stop w => trivial
  | ok b s2 =>
    rw [hw] at h1
    have h2 := Frame.trans h h1
    cases b with
    | false => exact h2
    | true =>
      refine InIo.after h2 (takeSignal_io s2 (fun sig s3 h => h) fun s3 h3 => ?_)
      exact InIo.after h3 (readLoop_io len _ s3)

/-- What `read_into_buffer` does to the input. -/
theorem readIntoBuffer_io (env : REnv) (t : Option Nat) (s : US) :
    match readIntoBuffer env t s with
    | .ok (.raw b) s' => s'.inBuf = s.inBuf ++ b ∧ s'.received = s.received ++ b ∧
        s.input = b ++ s'.input
    | .ok (.event (.signal _)) s' => SameIo s s'
    | .ok .nothing s' => SameIo s s'
    | .ok _ _ => False
    | .err _ s' => SameIo s s'
    | .stop _ => True := by
  have h := readInput_io env (env.spare s.inBuf.length) t { s with inBuf := [] }
  have e : readIntoBuffer env t s =
      match readInput env (env.spare s.inBuf.length) t { s with inBuf := [] } with
      | .ok (.raw b) s' => .ok (.raw b) { s' with inBuf := s.inBuf ++ b }
      | .ok r s' => .ok r { s' with inBuf := s.inBuf }
      | .err e s' => .err e { s' with inBuf := s.inBuf }
      | .stop w => .stop w := rfl
  rw [e]
  generalize readInput env (env.spare s.inBuf.length) t { s with inBuf := [] } = r at h
  cases r with
  | stop w => trivial
  | err e s' => exact ⟨rfl, h.2.1, h.2.2⟩
  | ok a s' =>
    cases a with
    | nothing => exact ⟨rfl, h.2.1, h.2.2⟩
    | raw b => exact ⟨rfl, h.2.1, h.2.2⟩
    | event ev =>
      cases ev with
      | signal sig => exact ⟨rfl, h.2.1, h.2.2⟩
      | _ => exact h.elim

/-! ## Events and the bytes they stand for -/

theorem usub_some {a b c : Nat} (h : usub a b = some c) : b ≤ a ∧ c = a - b := by
  unfold usub at h
  split at h
  · cases h; exact ⟨by assumption, rfl⟩
  · cases h

/-- A decoded event comes from a non-empty beginning of the input that stands for it. -/
theorem peek_denotes {m : SequenceMap SeqData} {K : PMap SeqData} (hm : Table m K) {buf : Bytes}
    {ev : Event} {n : Nat} (h : peekEvent m buf = some (.event ev n)) :
    0 < n ∧ n ≤ buf.length ∧ Denotes K (buf.take n) ev := by
  have hne : buf ≠ [] := by rintro rfl; cases h
  rcases input_cases hne with ⟨c, hc⟩ | hu | hi
  · obtain ⟨s, t, rfl, ht, hp⟩ := utf8Prefix_startsWith hc
    have hfirst : 0 < lenUtf8 c ∧ lenUtf8 c ≤ (encode (c :: s) ++ t).length ∧
        Denotes K ((encode (c :: s) ++ t).take (lenUtf8 c)) (.key (Key.ofChar c)) := by
      have hl := encodeChar_length c
      have hp := List.length_pos_iff.mpr (encodeChar_ne_nil c)
      refine ⟨by omega, ?_, ?_⟩
      · rw [encode_cons]; simp only [List.length_append]; omega
      · rw [encode_cons, List.append_assoc, ← hl, List.take_left]
        exact .char c
    have hlong : ∀ k, Longest K (encode (c :: s) ++ t) k → 0 < k.length ∧
        k.length ≤ (encode (c :: s) ++ t).length ∧ (encode (c :: s) ++ t).take k.length = k := by
      intro k hk
      exact ⟨List.length_pos_iff.mpr hk.1.2.1, hk.1.2.2.length_le,
        (List.prefix_iff_eq_take.mp hk.1.2.2).symm⟩
    rcases peek_text hm ht hp with ⟨_, he⟩ | ⟨k, kk, hk, hv, he⟩ | ⟨k, hk, hv, he⟩
    · rw [he] at h; cases h; exact hfirst
    · rw [he] at h; cases h
      obtain ⟨h1, h2, h3⟩ := hlong k hk
      refine ⟨h1, h2, ?_⟩
      rw [h3]
      exact .key hv hk.1.2.1
    · obtain ⟨h1, h2, h3⟩ := hlong k hk
      rw [he] at h
      cases hpm : parseMouseData ((encode (c :: s) ++ t).drop k.length) with
      | none => rw [hpm] at h; cases h
      | some o =>
        rw [hpm] at h
        cases o with
        | none => cases h; exact hfirst
        | some x =>
          obtain ⟨me, len⟩ := x
          cases h
          obtain ⟨d1, d2, d3, r, e, hb, g1, g2, g3, n1, n2, n3, hE⟩ :=
            parseMouse_shape (b := (encode (c :: s) ++ t).drop k.length) (by rw [hpm]; simp)
          have hf := parseMouse_fields (r := r) g1 g2 g3 n1 n2 n3 hE
          rw [← hb, hpm] at hf
          cases hl : usub (numeral d3) 1 with
          | none => rw [hl] at hf; cases hf
          | some l =>
          cases hc' : usub (numeral d2) 1 with
          | none => rw [hl, hc'] at hf; cases hf
          | some c' =>
          rw [hl, hc'] at hf
          simp only [Option.bind_eq_bind, Option.bind_some, Option.pure_def, Option.some.injEq,
            Prod.mk.injEq] at hf
          obtain ⟨rfl, rfl⟩ := hf
          obtain ⟨_, rfl⟩ := usub_some hl
          obtain ⟨_, rfl⟩ := usub_some hc'
          have hbuf : encode (c :: s) ++ t
              = k ++ (d1 ++ [59] ++ d2 ++ [59] ++ d3 ++ [e] ++ r) := by
            rw [← hb]
            conv => lhs; rw [← List.take_append_drop k.length (encode (c :: s) ++ t)]
            rw [h3]
          refine ⟨by omega, ?_, ?_⟩
          · rw [hbuf]; simp only [List.length_append]; omega
          · have ht : (encode (c :: s) ++ t).take
                (k.length + (d1 ++ [59] ++ d2 ++ [59] ++ d3 ++ [e]).length)
                = k ++ (d1 ++ [59] ++ d2 ++ [59] ++ d3 ++ [e]) := by
              rw [hbuf, ← List.append_assoc, ← List.length_append, List.take_left]
            rw [ht, mouseInput_eq n1]
            have hee : e = if (decide (e.toNat = 77)) then (77 : UInt8) else 109 := by
              rcases hE with hE | hE
              · rw [hE]; exact UInt8.toNat_inj.mp hE
              · rw [hE]; exact UInt8.toNat_inj.mp hE
            have := Denotes.mouse (K := K) (press := decide (e.toNat = 77)) hv hk.1.2.1 g1 g2 g3
            rw [← hee] at this
            exact this
  · unfold peekEvent at h
    rw [utf8Prefix_unfinished hu] at h
    cases h
  · unfold peekEvent at h
    rw [utf8Prefix_illFormed hi] at h
    cases h

/-- What `try_read` does. -/
theorem tryReadM_io {env : REnv} {K : PMap SeqData} (hm : Table env.seqs K) (s : US) :
    match tryReadM env s with
    | .ok none s' => s' = s
    | .ok (some ev) s' => ∃ b, Denotes K b ev ∧ s.inBuf = b ++ s'.inBuf ∧
        s' = { s with inBuf := s'.inBuf }
    | .err _ s' => s' = s
    | .stop _ => True := by
  unfold tryReadM
  rw [M.bind_apply]
  dsimp only [getS]
  unfold tryRead
  by_cases hb : s.inBuf = []
  · rw [if_pos hb]; rfl
  · rw [if_neg hb]
    cases hp : peekEvent env.seqs s.inBuf with
    | none => trivial
    | some r =>
      cases r with
      | err => rfl
      | none => rfl
      | event ev n =>
        obtain ⟨h1, h2, h3⟩ := peek_denotes hm hp
        simp only [Option.bind_eq_bind, Option.bind_some]
        rw [if_neg (by omega)]
        exact ⟨_, h3, (List.take_append_drop n s.inBuf).symm, rfl⟩

theorem denotes_kind {K : PMap SeqData} {b : Bytes} {ev : Event} (h : Denotes K b ev) :
    (∃ k, ev = .key k) ∨ ∃ m, ev = .mouse m := by
  cases h
  · exact Or.inl ⟨_, rfl⟩
  · exact Or.inl ⟨_, rfl⟩
  · exact Or.inr ⟨_, rfl⟩

/-- The bytes of the stream are where they should be after a call with result `r`. -/
def Flow (K : PMap SeqData) (r : URet) (s s' : US) : Prop :=
  ∃ b got, Uses K r b ∧ s'.received = s.received ++ got ∧ s.input = got ++ s'.input ∧
    s.inBuf ++ got = b ++ s'.inBuf

theorem Flow.same {K : PMap SeqData} {r : URet} {s s' : US} (hu : Uses K r []) (h : SameIo s s') :
    Flow K r s s' := ⟨[], [], hu, by simp [h.2.1], by simp [h.2.2], by simp [h.1]⟩

/-- Results of `handle_signal`. -/
theorem handleSignal_value (env : REnv) (sig : Signal) (s s' : US) (o : Option Event)
    (h : handleSignal env sig s = .ok o s') :
    o = none ∨ o = some (.signal sig) ∨ ∃ sz, o = some (.resize sz) := by
  have hrep : ∀ s s' : US, (do
      if (← getS).report.contains sig then pure (some (Event.signal sig)) else pure none : M _) s
        = .ok o s' → o = none ∨ o = some (.signal sig) ∨ ∃ sz, o = some (.resize sz) := by
    intro s s' h
    obtain ⟨a, s1, h1, h2⟩ := M.bind_ok h
    split at h2
    · cases h2; exact Or.inr (Or.inl rfl)
    · cases h2; exact Or.inl rfl
  cases sig
  case «continue» =>
    obtain ⟨a, s1, h1, h2⟩ := M.bind_ok h
    exact hrep _ _ h2
  case resize =>
    obtain ⟨a, s1, h1, h2⟩ := M.bind_ok h
    cases h2
    exact Or.inr (Or.inr ⟨_, rfl⟩)
  all_goals exact hrep _ _ h

theorem uses_signal {K : PMap SeqData} {sig : Signal} {o : Option Event}
    (h : o = none ∨ o = some (.signal sig) ∨ ∃ sz, o = some (.resize sz)) :
    Uses K (.event o) [] := by
  rcases h with rfl | rfl | ⟨sz, rfl⟩
  · exact .nothing
  · exact .signal _
  · exact .resize _

theorem readEvent_flow {env : REnv} {K : PMap SeqData} (hm : Table env.seqs K) (t : Option Nat)
    (s : US) :
    match readEvent env t s with
    | .ok o s' => Flow K (.event o) s s'
    | .err e s' => Flow K (.err e) s s'
    | .stop _ => True := by
  unfold readEvent
  rw [M.bind_apply]
  have h := tryReadM_io hm s
  cases ht : tryReadM env s with
  | stop w => trivial
  | err e s1 => rw [ht] at h; cases h; exact Flow.same (.err e) (Frame.refl (R := SameIo) s)
  | ok o s1 =>
    rw [ht] at h
    cases o with
    | some ev =>
      obtain ⟨b, h1, h2, h3⟩ := h
      dsimp only
      refine ⟨b, [], .event h1, ?_, ?_, ?_⟩
      · rw [h3]; simp
      · rw [h3]; simp
      · simpa using h2
    | none =>
      dsimp only at h ⊢
      subst h
      rw [M.bind_apply]
      have h2 := readIntoBuffer_io env t s1
      cases hr : readIntoBuffer env t s1 with
      | stop w => trivial
      | err e s2 => rw [hr] at h2; exact Flow.same (.err e) h2
      | ok a s2 =>
        rw [hr] at h2
        cases a with
        | nothing => exact Flow.same .nothing h2
        | raw b =>
          obtain ⟨g1, g2, g3⟩ := h2
          have h3 := tryReadM_io hm s2
          dsimp only
          cases ht2 : tryReadM env s2 with
          | stop w => trivial
          | err e s3 =>
            rw [ht2] at h3
            dsimp only at h3 ⊢
            subst h3
            exact ⟨[], b, .err e, g2, g3, by simp [g1]⟩
          | ok o s3 =>
            rw [ht2] at h3
            cases o with
            | none =>
              dsimp only at h3 ⊢
              subst h3
              exact ⟨[], b, .nothing, g2, g3, by simp [g1]⟩
            | some ev =>
              obtain ⟨b', k1, k2, k3⟩ := h3
              refine ⟨b', b, .event k1, ?_, ?_, ?_⟩
              · rw [k3]; exact g2
              · rw [k3]; exact g3
              · rw [← k2, g1]
        | event ev =>
          cases ev with
          | signal sig =>
            dsimp only
            have h4 := keeps_handleSignal (R := SameIo) env sig s2
            cases hh : handleSignal env sig s2 with
            | stop w => trivial
            | err e s3 => rw [hh] at h4; exact Flow.same (.err e) (Frame.trans h2 h4)
            | ok o s3 =>
              rw [hh] at h4
              exact Flow.same (uses_signal (handleSignal_value env sig _ _ _ hh))
                (Frame.trans h2 h4)
          | _ => exact h2.elim

theorem readRaw_flow {K : PMap SeqData} (env : REnv) (n : Nat) (t : Option Nat) (s : US) :
    match readRaw env n t s with
    | .ok o s' => Flow K (InRes.ret o) s s'
    | .err e s' => Flow K (.err e) s s'
    | .stop _ => True := by
  unfold readRaw
  rw [M.bind_apply]
  dsimp only [getS]
  by_cases hb : s.inBuf ≠ []
  · rw [if_pos hb]
    show Flow K (.raw (s.inBuf.take _)) s { s with inBuf := s.inBuf.drop _ }
    exact ⟨_, [], .raw _, by simp, by simp, by simp⟩
  · rw [if_neg hb, M.bind_apply]
    have h := readInput_io env n t s
    cases hr : readInput env n t s with
    | stop w => trivial
    | err e s1 => rw [hr] at h; exact Flow.same (.err e) h
    | ok a s1 =>
      rw [hr] at h
      cases a with
      | nothing => exact Flow.same .nothing h
      | raw b =>
        have hb' : s.inBuf = [] := by simpa using hb
        exact ⟨b, b, .raw b, h.2.1, h.2.2, by rw [h.1, hb']; simp⟩
      | event ev =>
        cases ev with
        | signal sig =>
          dsimp only
          rw [M.bind_apply]
          have h4 := keeps_handleSignal (R := SameIo) env sig s1
          cases hh : handleSignal env sig s1 with
          | stop w => trivial
          | err e s3 => rw [hh] at h4; exact Flow.same (.err e) (Frame.trans h h4)
          | ok o s3 =>
            rw [hh] at h4
            have hv := handleSignal_value env sig _ _ _ hh
            have := Flow.same (uses_signal (K := K) hv) (Frame.trans h h4)
            cases o <;> exact this
        | _ => exact h.elim

/-- Every call moves bytes only from the device to the buffer to its result. -/
theorem run_flow {env : REnv} {K : PMap SeqData} (hm : Table env.seqs K) {op : UOp}
    {st st' : List PrepareState} {s s' : US} {r : URet}
    (h : UOp.run env st s op = some (r, st', s')) : Flow K r s s' := by
  have close : ∀ {α : Type} (f : α → URet) (res : Res α), (∀ a s', res = .ok a s' → Flow K (f a) s s') →
      (∀ e s', res = .err e s' → Flow K (.err e) s s') → ∀ st0,
      (ret f res).map (fun (r, s) => (r, st0, s)) = some (r, st', s') → Flow K r s s' := by
    intro α f res h1 h2 st0 he
    cases res with
    | ok a s1 => cases he; exact h1 _ _ rfl
    | err e s1 => cases he; exact h2 _ _ rfl
    | stop w => cases he
  cases op with
  | prepare cfg =>
    dsimp only [UOp.run] at h
    have hk := keeps_prepare (R := SameIo) env cfg s
    cases hp : prepare env cfg s with
    | ok p s1 => rw [hp] at h hk; cases h; exact Flow.same .unit hk
    | err e s1 => rw [hp] at h hk; cases h; exact Flow.same (.err e) hk
    | stop w => rw [hp] at h; cases h
  | restore =>
    cases st with
    | nil => cases h; exact Flow.same .unit (Frame.refl s)
    | cons p st =>
      refine close _ _ ?_ ?_ _ h
      · exact fun a s1 e => Flow.same .unit ((keeps_restore (R := SameIo) env p).ok e)
      · exact fun x s1 e => Flow.same (.err x) ((keeps_restore (R := SameIo) env p).err e)
  | waitEvent t =>
    refine close _ _ ?_ ?_ _ h
    · exact fun a s1 e => Flow.same (.flag a) ((keeps_waitEvent (R := SameIo) env t).ok e)
    · exact fun x s1 e => Flow.same (.err x) ((keeps_waitEvent (R := SameIo) env t).err e)
  | readEvent t =>
    have hf := readEvent_flow hm t s
    refine close _ _ ?_ ?_ _ h
    · intro a s1 e; rw [e] at hf; exact hf
    · intro x s1 e; rw [e] at hf; exact hf
  | readRaw n t =>
    have hf := readRaw_flow (K := K) env n t s
    refine close _ _ ?_ ?_ _ h
    · intro a s1 e; rw [e] at hf; exact hf
    · intro x s1 e; rw [e] at hf; exact hf
  | write op =>
    refine close _ _ ?_ ?_ _ h
    · exact fun a s1 e => Flow.same .unit ((keeps_liftW (R := SameIo) _).ok e)
    · exact fun x s1 e => Flow.same (.err x) ((keeps_liftW (R := SameIo) _).err e)

end Mortal
