import Verif.Lemmas.LocksWriter
import Verif.Lemmas.LocksHeld

/-! # Locks: C24 (several threads), C38, C39, C65 -/

namespace Mortal
open Spec

/-! ## C38: deadlock -/

/-- **C38 (partial).** Any number of threads use one terminal, or one screen, and its guards; they make
any calls in any order and may panic anywhere. If each takes the read lock before the write lock and
no thread makes a call that waits for a lock that thread holds itself, then never is there a set of
threads waiting for each other. Partial: the second condition is not in the documentation for reads
through a guard, and without it the claim is false (`C38_read_event_deadlocks`). -/
theorem C38_no_deadlock_partial (scr : Bool) (env : WEnv) (ws : WS) (tr : List (Nat × Label WS)) (s : Sys WS)
    (e : Exec env (Careful scr) (Sys.init ws) tr s) (T : Nat → Prop) : ¬ Deadlock s T :=
  no_deadlock (good_careful e) T

/-- **C38 (partial).** Under the same conditions, a thread that waits for a lock somebody holds waits, in
the end, for a thread that holds a lock and waits for nobody. -/
theorem C38_progress_partial (scr : Bool) (env : WEnv) (ws : WS) (tr : List (Nat × Label WS)) (s : Sys WS)
    (e : Exec env (Careful scr) (Sys.init ws) tr s) (t t' : Nat) (h : WaitsFor s t t') :
    ∃ t'', WaitChain s t t'' ∧ (∃ l, (s.mx l).owner = some t'') ∧ ∀ u, ¬ WaitsFor s t'' u :=
  progress (good_careful e) t t' h

/-- **C38 (refuted part).** The documented rule is not enough: a thread takes the read lock, then the
write lock, and reads an event through its read guard; if the window was resized the thread waits for
the write lock, which it holds. For terminals and for screens. -/
theorem C38_read_event_deadlocks (scr : Bool) (env : WEnv) (ws : WS) :
    ∃ tr s, Exec env (ReadFirst scr) (Sys.init ws) tr s ∧ Deadlock s (· = 0) := by
  have w0 : ∀ s : Sys WS, ∀ k p, (s.thr 0).code = .acq .writer k p → (s.mx .writer).owner = some 0 →
      Deadlock s (· = 0) := fun s k p h o => ⟨⟨0, rfl⟩, fun t ht => ⟨0, rfl, .writer, ⟨k, p, ht ▸ h⟩, o⟩⟩
  have nt : ∀ H : LockId → Bool, (∀ l ∈ ([] : List LockId), H l = true) := by intro H l hl; cases hl
  cases scr with
  | false =>
    refine ⟨_, _, .cons (t := 0) (.call (c := .tLockRead) rfl ⟨⟨rfl, nt _⟩, fun _ => rfl⟩) (.cons (t := 0) (.acq rfl rfl)
      (.cons (t := 0) (.call (c := .tLockWrite) rfl ⟨⟨rfl, nt _⟩, fun h => by simp [takes] at h⟩) (.cons (t := 0) (.acq rfl rfl)
      (.cons (t := 0) (.call (c := .trRead (fun w => .ok w)) rfl ⟨⟨rfl, ?_⟩, fun h => by simp [takes] at h⟩)
      (.cons (t := 0) (.right rfl) (.cons (t := 0) (.left rfl) (.nil _))))))), ?_⟩
    · intro l hl
      simp only [needs, List.mem_singleton] at hl
      subst hl
      rfl
    · exact w0 _ _ _ rfl rfl
  | true =>
    refine ⟨_, _, .cons (t := 0) (.call (c := .sLockRead) rfl ⟨⟨rfl, nt _⟩, fun _ => rfl⟩) (.cons (t := 0) (.acq rfl rfl)
      (.cons (t := 0) (.call (c := .sLockWrite) rfl ⟨⟨rfl, nt _⟩, fun h => by simp [takes] at h⟩) (.cons (t := 0) (.acq rfl rfl)
      (.cons (t := 0) (.acq rfl rfl)
      (.cons (t := 0) (.call (c := .srRead (fun w => .ok w)) rfl ⟨⟨rfl, ?_⟩, fun h => by simp [takes] at h⟩)
      (.cons (t := 0) (.right rfl) (.cons (t := 0) (.left rfl) (.nil _)))))))), ?_⟩
    · intro l hl
      simp only [needs, List.mem_singleton] at hl
      subst hl
      rfl
    · exact w0 _ _ _ rfl rfl

/-- C38: without the documented rule two threads can wait for each other. -/
theorem C38_wrong_order_deadlocks (env : WEnv) (ws : WS) :
    ∃ tr s, Exec env (Typed false) (Sys.init ws) tr s ∧ Deadlock s (fun t => t = 0 ∨ t = 1) := by
  have nt : ∀ H : LockId → Bool, (∀ l ∈ ([] : List LockId), H l = true) := by intro H l hl; cases hl
  refine ⟨_, _, .cons (t := 0) (.call (c := .tLockRead) rfl ⟨rfl, nt _⟩) (.cons (t := 0) (.acq rfl rfl)
    (.cons (t := 1) (.call (c := .tLockWrite) rfl ⟨rfl, nt _⟩) (.cons (t := 1) (.acq rfl rfl)
    (.cons (t := 0) (.call (c := .tLockWrite) rfl ⟨rfl, nt _⟩)
    (.cons (t := 1) (.call (c := .tLockRead) rfl ⟨rfl, nt _⟩) (.nil _)))))), ?_⟩
  refine ⟨⟨0, Or.inl rfl⟩, fun t ht => ?_⟩
  rcases ht with rfl | rfl
  · exact ⟨1, Or.inr rfl, .writer, ⟨_, _, rfl⟩, rfl⟩
  · exact ⟨0, Or.inl rfl, .reader, ⟨_, _, rfl⟩, rfl⟩

/-- **C65.** Nobody is left with a lock by a call: whatever any number of threads do, when a call of a
thread has returned, the thread holds the guards it had before, without those the call was to drop and
with those it was to get; when a call that only tries has returned, it has got all its locks or none. And
a thread that has panicked and dropped what it had holds nothing. -/
theorem C65_guards (scr : Bool) (env : WEnv) (ws : WS) (tr tr' : List (Nat × Label WS)) (s0 s1 s2 : Sys WS) (t : Nat)
    (c : Call WS) (e0 : Exec env (Typed scr) (Sys.init ws) tr s0) (ec : LStep env (Typed scr) t s0 (.call c) s1)
    (e1 : Exec env (Typed scr) s1 tr' s2) (hn : NoCall t tr') (hd : (s2.thr t).code = .done) :
    if (s2.thr t).panicking then ∀ l, s2.holds t l = false else HeldAfter c (s0.holds t) (s2.holds t) :=
  guards_after scr env ws tr tr' s0 s1 s2 t c e0 ec e1 hn hd

/-- **C65.** A thread that has panicked, in a call or between calls, and has dropped what it had, holds no
lock. -/
theorem C65_dead_holds_nothing (scr : Bool) (env : WEnv) (ws : WS) (tr : List (Nat × Label WS)) (s : Sys WS) (t : Nat)
    (e : Exec env (Typed scr) (Sys.init ws) tr s) (hd : (s.thr t).code = .done)
    (hp : (s.thr t).panicking = true) (l : LockId) : s.holds t l = false :=
  dead_holds_nothing scr env ws tr s t e hd hp l

/-- C65: a `lock_write` of a screen by one thread, after which it holds both locks, and a
`try_lock_write` by another one that gets none. -/
example (env : WEnv) (ws : WS) : ∃ tr s0 s1 tr' s2, Exec env (Typed true) (Sys.init ws) tr s0 ∧
    LStep env (Typed true) 1 s0 (.call .sTryLockWrite) s1 ∧ Exec env (Typed true) s1 tr' s2 ∧
    NoCall 1 tr' ∧ (s2.thr 1).code = .done ∧ (s2.thr 1).panicking = false ∧ s2.holds 0 .writer = true ∧
    s2.holds 0 .data = true ∧ s2.holds 1 .data = false := by
  have nt : ∀ H : LockId → Bool, (∀ l ∈ ([] : List LockId), H l = true) := by intro H l hl; cases hl
  refine ⟨_, _, _, [(1, .tau), (1, .tau)], _, .cons (t := 0) (.call (c := .sLockWrite) rfl ⟨rfl, nt _⟩)
    (.cons (t := 0) (.acq rfl rfl) (.cons (t := 0) (.acq rfl rfl) (.nil _))),
    .call rfl ⟨rfl, nt _⟩, .cons (t := 1) (.tryNo rfl (fun h => by cases h))
      (.cons (t := 1) (.tryNo rfl (fun h => by cases h)) (.nil _)), ?_, rfl, rfl, rfl, rfl, rfl⟩
  intro c h
  simp at h

/-- C38: a careful execution in which a thread does wait for another (a refresh by one thread while
the other holds a write guard of the screen). -/
example (env : WEnv) (ws : WS) :
    ∃ tr s, Exec env (Careful true) (Sys.init ws) tr s ∧ WaitsFor s 1 0 := by
  have nt : ∀ H : LockId → Bool, (∀ l ∈ ([] : List LockId), H l = true) := by intro H l hl; cases hl
  refine ⟨_, _, .cons (t := 0) (.call (c := .sLockWrite) rfl
    ⟨⟨⟨rfl, nt _⟩, fun h => by simp [takes] at h⟩, fun l _ => by cases l <;> rfl⟩)
    (.cons (t := 0) (.acq rfl rfl) (.cons (t := 0) (.acq rfl rfl)
    (.cons (t := 1) (.call (c := .sRefresh .ok .ok) rfl
      ⟨⟨⟨rfl, nt _⟩, fun h => by simp [takes] at h⟩, fun l _ => by cases l <;> rfl⟩) (.nil _)))),
    .writer, ⟨_, _, rfl⟩, rfl⟩

/-! ## C24: several threads -/

/-- **C24.** Whatever any number of threads do: from when a thread has taken the write lock until it
releases it, the writer is used by that thread only, and the writer's state afterwards is the result
of just these uses, in order. -/
theorem C24_exclusive (scr : Bool) (env : WEnv) (ws : WS) (tr0 tr : List (Nat × Label WS)) (t : Nat)
    (s s' : Sys WS) (e0 : Exec env (Typed scr) (Sys.init ws) tr0 s) (ho : (s.mx .writer).owner = some t)
    (e : Exec env (Typed scr) s tr s') (hr : (t, .rel .writer) ∉ tr) :
    (∀ x ∈ uses tr, x.1 = t) ∧ applyUses ((uses tr).map (·.2)) s.ws = some s'.ws :=
  (uses_session e (good_typed_exec e0 (good_init _ _ ws)) ho hr).2

/-- **C24 (partial).** Between two moments of one session, the bytes received by the device or still
pending grow by the bytes of what the session's own calls handed over, contiguously. Partial: no short
writes, as for C23. -/
theorem C24_contiguous_partial (scr : Bool) (env : WEnv) (os : List WriteRes)
    (tr0 tr : List (Nat × Label WS)) (t : Nat) (s s' : Sys WS)
    (e0 : Exec env (Typed scr) (Sys.init (WS.new os)) tr0 s) (ho : (s.mx .writer).owner = some t)
    (e : Exec env (Typed scr) s tr s') (hr : (t, .rel .writer) ∉ tr)
    (hw0 : ∀ x ∈ uses tr0, Writes env x.2) (hw : ∀ x ∈ uses tr, Writes env x.2)
    (hos : NoShortWrites os) :
    (∀ x ∈ uses tr, x.1 = t) ∧ ∃ new, s'.ws.log = s.ws.log ++ new ∧
      s'.ws.dev ++ s'.ws.pending = s.ws.dev ++ s.ws.pending ++ logBytes env new := by
  have h0 : Delivered env s.ws := always_exec (delivered_inv env) e0 hw0 ⟨hos, rfl⟩
  have h1 : Delivered env s'.ws := always_exec (delivered_inv env) e hw h0
  obtain ⟨new, hn⟩ := always_exec (inv_log env s.ws.log) e hw List.prefix_rfl
  refine ⟨(C24_exclusive scr env _ tr0 tr t s s' e0 ho e hr).1, new, hn.symm, ?_⟩
  rw [h1.2, h0.2, ← hn]
  simp [logBytes]

/-- C24: thread 0 writes `a` and `b` through a guard; in between thread 1 wants to write, and waits. -/
example : ∃ tr0 tr s s', Exec demoDB (Typed false) (Sys.init (WS.new [])) tr0 s ∧
    (s.mx .writer).owner = some 0 ∧ Exec demoDB (Typed false) s tr s' ∧
    (0, .rel .writer) ∉ tr ∧ uses tr0 = [] ∧
    uses tr = [(0, (WOp.writeStr [97]).run demoDB), (0, (WOp.writeStr [98]).run demoDB)] ∧
    s'.ws.pending = [97, 98] := by
  have nt : ∀ H : LockId → Bool, (∀ l ∈ ([] : List LockId), H l = true) := by intro H l hl; cases hl
  refine ⟨_, _, _, _, .cons (t := 0) (.call (c := .tLockWrite) rfl ⟨rfl, nt _⟩)
    (.cons (t := 0) (.acq rfl rfl) (.nil _)), rfl,
    .cons (t := 0) (.call (c := .twWrite ((WOp.writeStr [97]).run demoDB)) rfl ⟨rfl, ?_⟩)
    (.cons (t := 0) (.use (w := { WS.new [] with pending := [97], log := [.text [97]] }) rfl ?_)
    (.cons (t := 1) (.call (c := .tWrite ((WOp.writeStr [99]).run demoDB)) rfl ⟨rfl, nt _⟩)
    (.cons (t := 0) (.call (c := .twWrite ((WOp.writeStr [98]).run demoDB)) rfl ⟨rfl, ?_⟩)
    (.cons (t := 0) (.use (w := { WS.new [] with pending := [97, 98], log := [.text [97], .text [98]] })
      rfl ?_) (.nil _))))), ?_, rfl, rfl, rfl⟩
  · intro l hl
    simp only [needs, List.mem_singleton] at hl
    subst hl
    rfl
  · decide +kernel
  · intro l hl
    simp only [needs, List.mem_singleton] at hl
    subst hl
    rfl
  · show ((WOp.writeStr [98]).run demoDB { WS.new [] with pending := [97], log := [.text [97]] }).state = _
    decide +kernel
  · simp

/-! ## C39: lock results -/

/-- **C39.** Combining two lock results: both guards are in the result, which is poisoned iff one of
the two is. -/
theorem C39_lock {α β γ : Type} (a : LockRes α) (b : LockRes β) (f : α → β → γ) (x : α) (y : β)
    (pa pb : Bool) (ha : a = if pa then .poisoned x else .ok x) (hb : b = if pb then .poisoned y else .ok y) :
    map2LockResult a b f = if pa || pb then .poisoned (f x y) else .ok (f x y) := by
  subst ha hb
  cases pa <;> cases pb <;> rfl

/-- **C39.** `Screen::lock_write` on locks that are free takes both; the result is poisoned iff one of the
locks is, and contains both guards. If one of the locks is held it blocks. -/
theorem C39_lock_write (w d : Mutex) :
    lockWriteCall w d = if w.held || d.held then none else
      some (if w.poisoned || d.poisoned then .poisoned (⟨false⟩, ⟨true⟩) else .ok (⟨false⟩, ⟨true⟩),
        { w with held := true }, { d with held := true }) := by
  obtain ⟨a, b⟩ := w
  obtain ⟨c, e⟩ := d
  cases a <;> cases b <;> cases c <;> cases e <;> rfl

/-- **C39.** `Screen::try_lock_write` yields `WouldBlock` iff one of the locks is held, and then leaves both
locks as they were; otherwise it takes both, and the result is poisoned iff one of the locks is. -/
theorem C39_try_lock_write (w d : Mutex) :
    tryLockWriteCall w d = if w.held || d.held then (.wouldBlock, w, d) else
      (if w.poisoned || d.poisoned then .poisoned (⟨false⟩, ⟨true⟩) else .ok (⟨false⟩, ⟨true⟩),
        { w with held := true }, { d with held := true }) := by
  obtain ⟨a, b⟩ := w
  obtain ⟨c, e⟩ := d
  cases a <;> cases b <;> cases c <;> cases e <;> rfl

/-- C39: one lock is poisoned, the other held. -/
example : tryLockWriteCall ⟨false, true⟩ ⟨true, false⟩ = (.wouldBlock, ⟨false, true⟩, ⟨true, false⟩) := rfl

end Mortal
