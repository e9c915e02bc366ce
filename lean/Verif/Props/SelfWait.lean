import Verif.Lemmas.SelfWait
import Verif.Props.WinLocks

/-! # C38: exactly which deadlocks there are -/

namespace Mortal
open Spec

/-- **C38.** If every thread follows the documented rule, that the read lock is taken before the write
lock, there is a deadlock if and only if some thread waits for a lock it holds itself. On Unix. -/
theorem C38_deadlock_iff (scr : Bool) (env : WEnv) (ws : WS) (tr : List (Nat × Label WS)) (s : Sys WS)
    (e : Exec env (ReadFirst scr) (Sys.init ws) tr s) :
    (∃ T, Deadlock s T) ↔ ∃ t, WaitsFor s t t := by
  constructor
  · rintro ⟨T, h⟩
    obtain ⟨t, -, ht⟩ := deadlock_self (orderly_exec e (orderly_init scr ws)) h
    exact ⟨t, ht⟩
  · rintro ⟨t, ht⟩
    exact ⟨(· = t), ⟨t, rfl⟩, fun t' h => ⟨t, rfl, h ▸ ht⟩⟩

/-- **C38** on Windows: the same. -/
theorem C38_win_deadlock_iff (scr : Bool) (t : WTerm) (ws : WinSt) (tr : List (Nat × Label WinSt))
    (s : Sys WinSt) (e : Exec t (ReadFirst scr) (Sys.init ws) tr s) :
    (∃ T, Deadlock s T) ↔ ∃ i, WaitsFor s i i := by
  constructor
  · rintro ⟨T, h⟩
    obtain ⟨i, -, hi⟩ := deadlock_self (orderly_exec e (orderly_init scr ws)) h
    exact ⟨i, hi⟩
  · rintro ⟨i, hi⟩
    exact ⟨(· = i), ⟨i, rfl⟩, fun j h => ⟨i, rfl, h ▸ hi⟩⟩

/-- **C38.** A deadlock is for ever: whatever the other threads do, those in it do nothing any more and
wait for each other all the time. (The model lets a thread panic anywhere; one that waits for a lock
does not.) On Unix. -/
theorem C38_for_ever (scr : Bool) (env : WEnv) (ws : WS) (tr tr' : List (Nat × Label WS)) (s s' : Sys WS)
    (e : Exec env (Typed scr) (Sys.init ws) tr s) (T : Nat → Prop) (hd : Deadlock s T)
    (e' : Exec env (Typed scr) s tr' s') (hc : ∀ t, T t → (t, .crash) ∉ tr') :
    (∀ x ∈ tr', ¬ T x.1) ∧ Deadlock s' T :=
  deadlock_stays e' (good_typed_exec e (good_init _ _ ws)) hd hc

/-- **C38** on Windows: the same. -/
theorem C38_win_for_ever (scr : Bool) (t : WTerm) (ws : WinSt) (tr tr' : List (Nat × Label WinSt))
    (s s' : Sys WinSt) (e : Exec t (Typed scr) (Sys.init ws) tr s) (T : Nat → Prop) (hd : Deadlock s T)
    (e' : Exec t (Typed scr) s tr' s') (hc : ∀ i, T i → (i, .crash) ∉ tr') :
    (∀ x ∈ tr', ¬ T x.1) ∧ Deadlock s' T :=
  deadlock_stays e' (good_typed_exec e (good_init _ _ ws)) hd hc

/-- The hypotheses are met: a thread that waits for itself (`C38_read_event_deadlocks`,
`C38_win_read_event_deadlocks`), while another one takes the read lock in vain. -/
example (env : WEnv) (ws : WS) : ∃ tr s, Exec env (ReadFirst true) (Sys.init ws) tr s ∧
    (∃ T, Deadlock s T) ∧ ∃ t, WaitsFor s t t := by
  obtain ⟨tr, s, h1, h2⟩ := C38_read_event_deadlocks true env ws
  exact ⟨tr, s, h1, ⟨_, h2⟩, (C38_deadlock_iff true env ws tr s h1).1 ⟨_, h2⟩⟩

example (env : WEnv) (ws : WS) : ∃ tr s tr' s', Exec env (Typed false) (Sys.init ws) tr s ∧
    Deadlock s (· = 0) ∧ Exec env (Typed false) s tr' s' ∧ (∀ t, t = 0 → (t, .crash) ∉ tr') ∧ tr' ≠ [] := by
  have nt : ∀ H : LockId → Bool, (∀ l ∈ ([] : List LockId), H l = true) := by intro H l hl; cases hl
  refine ⟨_, _, [(1, .call .tLockRead)], _,
    .cons (t := 0) (.call (c := .tLockRead) rfl ⟨rfl, nt _⟩) (.cons (t := 0) (.acq rfl rfl)
      (.cons (t := 0) (.call (c := .tLockWrite) rfl ⟨rfl, nt _⟩) (.cons (t := 0) (.acq rfl rfl)
      (.cons (t := 0) (.call (c := .trRead (fun w => .ok w)) rfl ⟨rfl, ?_⟩)
      (.cons (t := 0) (.right rfl) (.cons (t := 0) (.left rfl) (.nil _))))))),
    ⟨⟨0, rfl⟩, fun t ht => ⟨0, rfl, .writer, ?_, rfl⟩⟩,
    .cons (t := 1) (.call (c := .tLockRead) rfl ⟨rfl, nt _⟩) (.nil _), ?_, by simp⟩
  · intro l hl
    simp only [needs, List.mem_singleton] at hl
    subst hl
    rfl
  · subst ht
    exact ⟨_, _, rfl⟩
  · rintro t rfl
    simp

end Mortal
