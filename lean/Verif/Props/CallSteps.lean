import Verif.Lemmas.CallSteps

/-! # What a call does, whatever other threads do: C71 -/

namespace Mortal
open Spec

/-! ## Unix -/

/-- **C71.** Any number of threads use one terminal or one screen, in any way. When a call of a thread has
returned, what the thread did in it is what the documentation says: it took the locks the call needs, in
order, applied to the writer what was asked, ended the session if it gives back the writer's lock, and
gave back just those locks whose guard is not in the result. A `try_lock_…` took all its locks, or gave
back those it got. A call that reads did that, besides, for a resize or for the process having been
continued. (From any state, and for any rule `may` about which calls are made.) -/
theorem C71_does (env : WEnv) (may : (LockId → Bool) → Call WS → Prop) (t : Nat) (c : Call WS)
    (s0 s1 s2 : Sys WS) (tr : List (Nat × Label WS)) (ec : LStep env may t s0 (.call c) s1)
    (e : Exec env may s1 tr s2) (hn : NoCall t tr) (hd : s2.thr t = ⟨.done, false⟩) :
    DoesUnix env c (own t tr) :=
  lang_code env c _ (call_lang ec e hn hd)

/-- **C71.** If a thread gets a poisoned lock in a call that is not one of `lock_…` or `try_lock_…`, then,
unless it panics earlier, all it still does in that call is to take locks; it applies nothing to the
writer, and the call does not return. -/
theorem C71_poisoned (env : WEnv) (may : (LockId → Bool) → Call WS → Prop) (t : Nat) (c : Call WS) (l : LockId)
    (s0 s1 s2 s3 s4 : Sys WS) (tr tr' : List (Nat × Label WS)) (hg : asksForGuard c = false)
    (ec : LStep env may t s0 (.call c) s1) (e1 : Exec env may s1 tr s2) (hn : NoCall t tr)
    (st : LStep env may t s2 (.acq l) s3) (hp : (s2.mx l).poisoned = true) (e2 : Exec env may s3 tr' s4)
    (hn' : NoCall t tr') (hq : (s4.thr t).panicking = false) :
    (s4.thr t).code ≠ .done ∧ ∀ x ∈ own t tr', ∃ l, x = .took l :=
  call_poisoned (wary_code env c hg) ec e1 hn st hp e2 hn' hq

/-- **C71.** `lock_…` and `try_lock_…` never come to a panic of their own, poisoned locks or not. -/
theorem C71_guards_returned (env : WEnv) (may : (LockId → Bool) → Call WS → Prop) (t : Nat) (c : Call WS)
    (s0 s1 s2 : Sys WS) (tr : List (Nat × Label WS)) (hg : asksForGuard c = true)
    (ec : LStep env may t s0 (.call c) s1) (e : Exec env may s1 tr s2) (hn : NoCall t tr)
    (hq : (s2.thr t).panicking = false) : (s2.thr t).code ≠ .panic :=
  call_calm (calm_code env c hg) ec e hn hq

/-- **C71.** A thread that panics, in a call or between calls, drops its guards and does nothing else: it
gives back the locks it holds, the writer's first and the reader's last; before the writer's, the session
is ended, after what the drop of the guard writes. -/
theorem C71_panic (env : WEnv) (may : (LockId → Bool) → Call WS → Prop) (t : Nat) (s0 s1 s2 : Sys WS)
    (tr : List (Nat × Label WS)) (ec : LStep env may t s0 .crash s1) (e : Exec env may s1 tr s2)
    (hd : (s2.thr t).code = .done) :
    ∃ f, own t tr =
      work [WOp.sessionEnd.run env] [] (if s0.holds t .writer then [f] else []) (heldOf (s0.holds t)) := by
  obtain ⟨f, h⟩ := panic_lang ec e hd
  exact ⟨f, lang_unwind env f _ _ h⟩

/-! ## Windows -/

/-- **C71** on Windows, where no session has to be ended, preparing does nothing to the writer, and reading
takes no lock but that of the screen's data. -/
theorem C71_win_does (w : WTerm) (may : (LockId → Bool) → Call WinSt → Prop) (t : Nat) (c : Call WinSt)
    (s0 s1 s2 : Sys WinSt) (tr : List (Nat × Label WinSt)) (ec : LStep w may t s0 (.call c) s1)
    (e : Exec w may s1 tr s2) (hn : NoCall t tr) (hd : s2.thr t = ⟨.done, false⟩) :
    DoesWin c (own t tr) :=
  lang_win c _ (call_lang ec e hn hd)

/-- **C71** on Windows: a call that gets a poisoned lock, and does not return its guard, does not return. -/
theorem C71_win_poisoned (w : WTerm) (may : (LockId → Bool) → Call WinSt → Prop) (t : Nat) (c : Call WinSt)
    (l : LockId) (s0 s1 s2 s3 s4 : Sys WinSt) (tr tr' : List (Nat × Label WinSt)) (hg : asksForGuard c = false)
    (ec : LStep w may t s0 (.call c) s1) (e1 : Exec w may s1 tr s2) (hn : NoCall t tr)
    (st : LStep w may t s2 (.acq l) s3) (hp : (s2.mx l).poisoned = true) (e2 : Exec w may s3 tr' s4)
    (hn' : NoCall t tr') (hq : (s4.thr t).panicking = false) :
    (s4.thr t).code ≠ .done ∧ ∀ x ∈ own t tr', ∃ l, x = .took l :=
  call_poisoned (env := w) (wary_win c hg) ec e1 hn st hp e2 hn' hq

/-- **C71** on Windows: `lock_…` and `try_lock_…` never come to a panic of their own. -/
theorem C71_win_guards_returned (w : WTerm) (may : (LockId → Bool) → Call WinSt → Prop) (t : Nat)
    (c : Call WinSt) (s0 s1 s2 : Sys WinSt) (tr : List (Nat × Label WinSt)) (hg : asksForGuard c = true)
    (ec : LStep w may t s0 (.call c) s1) (e : Exec w may s1 tr s2) (hn : NoCall t tr)
    (hq : (s2.thr t).panicking = false) : (s2.thr t).code ≠ .panic :=
  call_calm (env := w) (calm_win c hg) ec e hn hq

/-- **C71** on Windows: what a thread that panics still does; a refresh is tried just if it has a screen's
write guard. -/
theorem C71_win_panic (w : WTerm) (may : (LockId → Bool) → Call WinSt → Prop) (t : Nat) (s0 s1 s2 : Sys WinSt)
    (tr : List (Nat × Label WinSt)) (ec : LStep w may t s0 .crash s1) (e : Exec w may s1 tr s2)
    (hd : (s2.thr t).code = .done) :
    ∃ f, own t tr =
      work [] [] (if s0.holds t .writer && s0.holds t .data then [f] else []) (heldOf (s0.holds t)) := by
  obtain ⟨f, h⟩ := panic_lang ec e hd
  exact ⟨f, lang_winUnwind f _ _ h⟩

/-! ## Cases -/

/-- A thread refreshes a screen while another one draws; the other one is in its way once, so that its steps
are between those of the call. -/
example (env : WEnv) (ws : WS) (f g : WS → Outcome WS) (w1 w2 w3 : WS) (h1 : (f ws).state = some w1)
    (h2 : (g w1).state = some w2) (h3 : (WOp.sessionEnd.run env w2).state = some w3) :
    ∃ tr s0 s1 tr' s2, Exec env (Typed true) (Sys.init ws) tr s0 ∧
      LStep env (Typed true) 1 s0 (.call (.sRefresh f g)) s1 ∧ Exec env (Typed true) s1 tr' s2 ∧ NoCall 1 tr' ∧
      s2.thr 1 = ⟨.done, false⟩ ∧ (0, .rel .data) ∈ tr' ∧ own 1 tr' = [.took .writer, .took .data, .applied f,
        .applied g, .applied (WOp.sessionEnd.run env), .gave .writer, .gave .data] := by
  have nt : ∀ H : LockId → Bool, (∀ l ∈ ([] : List LockId), H l = true) := by intro H l hl; cases hl
  refine ⟨_, _, _, [(1, .acq .writer), (0, .rel .data), (1, .acq .data), (1, .use f), (1, .use g), (1, .use _),
    (1, .rel .writer), (1, .rel .data)], _,
    .cons (t := 0) (.call (c := .sDraw) rfl ⟨rfl, nt _⟩) (.cons (t := 0) (.acq rfl rfl) (.nil _)),
    .call rfl ⟨rfl, nt _⟩, .cons (.acq rfl rfl) <| .cons (.rel rfl) <| .cons (.acq rfl rfl) <|
      .cons (.use rfl h1) <| .cons (.use rfl h2) <| .cons (.use rfl h3) <| .cons (.rel rfl) <|
      .cons (.rel rfl) (.nil _), ?_, rfl, by simp, rfl⟩
  intro c h
  simp at h

/-- A thread panicked while it drew. Another one refreshes the screen: it gets the poisoned lock of the
data, on either platform. -/
example (env : WEnv) (ws : WS) (f g : WS → Outcome WS) : ∃ tr s0 s1 tr' s2 s3,
    Exec env (Typed true) (Sys.init ws) tr s0 ∧ LStep env (Typed true) 1 s0 (.call (.sRefresh f g)) s1 ∧
      Exec env (Typed true) s1 tr' s2 ∧ NoCall 1 tr' ∧ LStep env (Typed true) 1 s2 (.acq .data) s3 ∧
      (s2.mx .data).poisoned = true ∧ (s3.thr 1).code = .panic ∧ (s3.thr 1).panicking = false := by
  have nt : ∀ H : LockId → Bool, (∀ l ∈ ([] : List LockId), H l = true) := by intro H l hl; cases hl
  refine ⟨_, _, _, [(1, .acq .writer)], _, _,
    .cons (t := 0) (.call (c := .sDraw) rfl ⟨rfl, nt _⟩) (.cons (t := 0) (.acq rfl rfl)
      (.cons (t := 0) (.crash (f := .ok) rfl) (.cons (t := 0) (.rel rfl) (.nil _)))),
    .call rfl ⟨rfl, nt _⟩, .cons (.acq rfl rfl) (.nil _), ?_, .acq rfl rfl, rfl, rfl, rfl⟩
  intro c h
  simp at h

example (w : WTerm) (ws : WinSt) (f g : WinSt → Outcome WinSt) : ∃ tr s0 s1 tr' s2 s3,
    Exec w (Typed true) (Sys.init ws) tr s0 ∧ LStep w (Typed true) 1 s0 (.call (.sRefresh f g)) s1 ∧
      Exec w (Typed true) s1 tr' s2 ∧ NoCall 1 tr' ∧ LStep w (Typed true) 1 s2 (.acq .data) s3 ∧
      (s2.mx .data).poisoned = true ∧ (s3.thr 1).code = .panic ∧ (s3.thr 1).panicking = false := by
  have nt : ∀ H : LockId → Bool, (∀ l ∈ ([] : List LockId), H l = true) := by intro H l hl; cases hl
  refine ⟨_, _, _, [(1, .acq .writer)], _, _,
    .cons (t := 0) (.call (c := .sDraw) rfl ⟨rfl, nt _⟩) (.cons (t := 0) (.acq rfl rfl)
      (.cons (t := 0) (.crash (f := .ok) rfl) (.cons (t := 0) (.rel rfl) (.nil _)))),
    .call rfl ⟨rfl, nt _⟩, .cons (.acq rfl rfl) (.nil _), ?_, .acq rfl rfl, rfl, rfl, rfl⟩
  intro c h
  simp at h

/-- In the same place `lock_write` returns both guards. -/
example (w : WTerm) (ws : WinSt) : ∃ tr s0 s1 tr' s2,
    Exec w (Typed true) (Sys.init ws) tr s0 ∧ LStep w (Typed true) 1 s0 (.call .sLockWrite) s1 ∧
      Exec w (Typed true) s1 tr' s2 ∧ NoCall 1 tr' ∧ (s2.mx .data).poisoned = true ∧
      s2.thr 1 = ⟨.done, false⟩ ∧ own 1 tr' = [.took .writer, .took .data] := by
  have nt : ∀ H : LockId → Bool, (∀ l ∈ ([] : List LockId), H l = true) := by intro H l hl; cases hl
  refine ⟨_, _, _, [(1, .acq .writer), (1, .acq .data)], _,
    .cons (t := 0) (.call (c := .sDraw) rfl ⟨rfl, nt _⟩) (.cons (t := 0) (.acq rfl rfl)
      (.cons (t := 0) (.crash (f := .ok) rfl) (.cons (t := 0) (.rel rfl) (.nil _)))),
    .call rfl ⟨rfl, nt _⟩, .cons (.acq rfl rfl) (.cons (.acq rfl rfl) (.nil _)), ?_, rfl, rfl, rfl⟩
  intro c h
  simp at h

/-- A thread panics in a call of its write guard of a screen. -/
example (w : WTerm) (ws : WinSt) : ∃ tr s0 s1 tr' s2,
    Exec w (Typed true) (Sys.init ws) tr s0 ∧ LStep w (Typed true) 1 s0 .crash s1 ∧
      Exec w (Typed true) s1 tr' s2 ∧ (s2.thr 1).code = .done ∧
      own 1 tr' = [.applied .ok, .gave .writer, .gave .data] := by
  have nt : ∀ H : LockId → Bool, (∀ l ∈ ([] : List LockId), H l = true) := by intro H l hl; cases hl
  exact ⟨_, _, _, [(1, .use .ok), (1, .rel .writer), (1, .rel .data)], _,
    .cons (t := 1) (.call (c := .sLockWrite) rfl ⟨rfl, nt _⟩) (.cons (t := 1) (.acq rfl rfl)
      (.cons (t := 1) (.acq rfl rfl) (.nil _))),
    .crash (f := .ok) rfl, .cons (.use rfl rfl) (.cons (.rel rfl) (.cons (.rel rfl) (.nil _))), rfl, rfl⟩

end Mortal
