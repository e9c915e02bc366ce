import Verif.Lemmas.WinLocks
import Verif.Props.DirectWin
import Verif.Props.Serial

/-! # Locks on Windows: C24, C38, C60, C64, C65, C67 -/

namespace Mortal
open Spec

/-! ## C38: deadlock -/

/-- **C38 (partial)** on Windows. Any number of threads use one terminal, or one screen, and its guards; they
make any calls in any order and may panic anywhere. If each takes the read lock before the write lock and
no thread makes a call that waits for a lock that thread holds itself, then never is there a set of
threads waiting for each other. Partial as on Unix: for reads through a screen's guard the second
condition is not in the documentation (`C38_win_read_event_deadlocks`). -/
theorem C38_win_no_deadlock_partial (scr : Bool) (t : WTerm) (ws : WinSt) (tr : List (Nat × Label WinSt))
    (s : Sys WinSt) (e : Exec t (CarefulWin scr) (Sys.init ws) tr s) (T : Nat → Prop) : ¬ Deadlock s T :=
  no_deadlock (winGood_careful e) T

/-- **C38 (partial)** on Windows. Under the same conditions, a thread that waits for a lock somebody holds
waits, in the end, for a thread that holds a lock and waits for nobody. -/
theorem C38_win_progress_partial (scr : Bool) (t : WTerm) (ws : WinSt) (tr : List (Nat × Label WinSt))
    (s : Sys WinSt) (e : Exec t (CarefulWin scr) (Sys.init ws) tr s) (i j : Nat) (h : WaitsFor s i j) :
    ∃ k, WaitChain s i k ∧ (∃ l, (s.mx l).owner = some k) ∧ ∀ u, ¬ WaitsFor s k u :=
  progress (winGood_careful e) i j h

/-- **C38 (refuted part)** on Windows. The documented rule is not enough there for screens: a thread takes
the read lock, then the write lock of a screen, and reads an event through its read guard; if the window
was resized the thread waits for the lock of the screen's data, which it holds. -/
theorem C38_win_read_event_deadlocks (t : WTerm) (ws : WinSt) :
    ∃ tr s, Exec t (ReadFirst true) (Sys.init ws) tr s ∧ Deadlock s (· = 0) := by
  have nt : ∀ H : LockId → Bool, (∀ l ∈ ([] : List LockId), H l = true) := by intro H l hl; cases hl
  have nr : ∀ H : LockId → Bool, H .reader = true → (∀ l ∈ [LockId.reader], H l = true) := by
    intro H h l hl
    rw [List.mem_singleton.1 hl]
    exact h
  refine ⟨_, _, .cons (t := 0) (.call (c := .sLockRead) rfl ⟨⟨rfl, nt _⟩, fun _ => rfl⟩) <| .cons (t := 0) (.acq rfl rfl) <|
      .cons (t := 0) (.call (c := .sLockWrite) rfl ⟨⟨rfl, nt _⟩, fun h => by simp [takes] at h⟩) <|
      .cons (t := 0) (.acq rfl rfl) <| .cons (t := 0) (.acq rfl rfl) <|
      .cons (t := 0) (.call (c := .srRead .ok) rfl ⟨⟨rfl, nr _ rfl⟩, fun h => by simp [takes] at h⟩) <|
      .cons (t := 0) (.right rfl) (.nil _), ?_⟩
  exact ⟨⟨0, rfl⟩, fun i hi => by
    obtain rfl : i = 0 := hi
    exact ⟨0, rfl, .data, ⟨_, _, rfl⟩, rfl⟩⟩

/-! ## C67: both platforms -/

/-- **C67 (partial).** A program that is careful by the rules for Unix has no deadlock on Windows either.
Partial: the converse is only proved for programs that do not read while they hold a write guard. -/
theorem C67_unix_to_win_partial (scr : Bool) (t : WTerm) (ws : WinSt) (tr : List (Nat × Label WinSt))
    (s : Sys WinSt) (e : Exec t (Careful scr) (Sys.init ws) tr s) (T : Nat → Prop) : ¬ Deadlock s T :=
  no_deadlock (winGood_careful (e.weaken fun _ _ h => careful_win h)) T

/-- **C67 (partial).** A program that is careful by the rules for Windows, and does not read while it holds a
write guard, has no deadlock on Unix. -/
theorem C67_win_to_unix_partial (scr : Bool) (env : WEnv) (ws : WS) (tr : List (Nat × Label WS)) (s : Sys WS)
    (e : Exec env (fun H c => CarefulWin scr H c ∧ (isRead c = true → H .writer = false)) (Sys.init ws) tr s)
    (T : Nat → Prop) : ¬ Deadlock s T := by
  refine no_deadlock (scr := scr) (good_exec (fun H c hd hm => ?_) e (good_init _ _ ws)) T
  have hd := hd trivial
  refine good_code scr env H c hd (careful_unix hm.1 fun hr => ⟨hm.2 hr, ?_⟩)
  cases h : H .data with
  | false => rfl
  | true => exact (hd h).2.symm.trans (hm.2 hr)

/-- **C67 (refuted part).** The other way round it is not so in general. A thread that takes the read lock of a
terminal, then the write lock, and reads an event through its read guard is careful on Windows, at every
call; and its reading takes no lock there. On Unix the same calls, which obey the documented rule, may
leave it waiting for itself. -/
theorem C67_win_tested_deadlocks (t : WTerm) (ws : WinSt) (env : WEnv) (ws' : WS) :
    (∃ tr s, Exec t (CarefulWin false) (Sys.init ws) tr s ∧
      tr = [(0, .call .tLockRead), (0, .acq .reader), (0, .call .tLockWrite), (0, .acq .writer),
        (0, .call (.trRead .ok))] ∧ (s.thr 0).code = .done) ∧
    ∃ tr s, Exec env (ReadFirst false) (Sys.init ws') tr s ∧
      tr = [(0, .call .tLockRead), (0, .acq .reader), (0, .call .tLockWrite), (0, .acq .writer),
        (0, .call (.trRead .ok)), (0, .tau), (0, .tau)] ∧ Deadlock s (· = 0) := by
  have nt : ∀ H : LockId → Bool, (∀ l ∈ ([] : List LockId), H l = true) := by intro H l hl; cases hl
  have nr : ∀ H : LockId → Bool, H .reader = true → (∀ l ∈ [LockId.reader], H l = true) := by
    intro H h l hl
    rw [List.mem_singleton.1 hl]
    exact h
  refine ⟨⟨_, _, .cons (t := 0) (.call (c := .tLockRead) rfl ⟨⟨⟨rfl, nt _⟩, fun _ => rfl⟩, fun l _ => by cases l <;> rfl⟩) <|
      .cons (t := 0) (.acq rfl rfl) <|
      .cons (t := 0) (.call (c := .tLockWrite) rfl ⟨⟨⟨rfl, nt _⟩, fun h => by simp [takesWin] at h⟩, fun l h => by
        rw [List.mem_singleton.1 h]; rfl⟩) <|
      .cons (t := 0) (.acq rfl rfl) <|
      .cons (t := 0) (.call (c := .trRead .ok) rfl ⟨⟨⟨rfl, nr _ rfl⟩, fun h => by simp [takesWin] at h⟩, fun l h => by
        simp [takesWin] at h⟩) (.nil _), rfl, rfl⟩, ?_⟩
  refine ⟨_, _, .cons (t := 0) (.call (c := .tLockRead) rfl ⟨⟨rfl, nt _⟩, fun _ => rfl⟩) <| .cons (t := 0) (.acq rfl rfl) <|
      .cons (t := 0) (.call (c := .tLockWrite) rfl ⟨⟨rfl, nt _⟩, fun h => by simp [takes] at h⟩) <|
      .cons (t := 0) (.acq rfl rfl) <|
      .cons (t := 0) (.call (c := .trRead .ok) rfl ⟨⟨rfl, nr _ rfl⟩, fun h => by simp [takes] at h⟩) <|
      .cons (t := 0) (.right rfl) <| .cons (t := 0) (.left rfl) (.nil _), rfl, ?_⟩
  exact ⟨⟨0, rfl⟩, fun i hi => by
    obtain rfl : i = 0 := hi
    exact ⟨0, rfl, .writer, ⟨_, _, rfl⟩, rfl⟩⟩

/-- C67: an execution that is careful by the rules for Unix, in which a thread waits for another. -/
example (t : WTerm) (ws : WinSt) : ∃ tr s, Exec t (Careful true) (Sys.init ws) tr s ∧ WaitsFor s 1 0 := by
  have nt : ∀ H : LockId → Bool, (∀ l ∈ ([] : List LockId), H l = true) := by intro H l hl; cases hl
  exact ⟨_, _, .cons (t := 0) (.call (c := .sLockWrite) rfl
    ⟨⟨⟨rfl, nt _⟩, fun h => by simp [takes] at h⟩, fun l _ => by cases l <;> rfl⟩)
    (.cons (t := 0) (.acq rfl rfl) (.cons (t := 0) (.acq rfl rfl)
    (.cons (t := 1) (.call (c := .sRefresh .ok .ok) rfl
      ⟨⟨⟨rfl, nt _⟩, fun h => by simp [takes] at h⟩, fun l _ => by cases l <;> rfl⟩) (.nil _)))),
    .writer, ⟨_, _, rfl⟩, rfl⟩

/-- C67: an execution on Unix that is careful by the rules for Windows, in which a thread reads while another
holds the write lock, and waits. -/
example (env : WEnv) (ws : WS) : ∃ tr s, Exec env (fun H c => CarefulWin false H c ∧
    (isRead c = true → H .writer = false)) (Sys.init ws) tr s ∧ WaitsFor s 1 0 := by
  have nt : ∀ H : LockId → Bool, (∀ l ∈ ([] : List LockId), H l = true) := by intro H l hl; cases hl
  exact ⟨_, _, .cons (t := 0) (.call (c := .tLockWrite) rfl
    ⟨⟨⟨⟨rfl, nt _⟩, fun h => by simp [takesWin] at h⟩, fun l _ => by cases l <;> rfl⟩, nofun⟩) <|
    .cons (t := 0) (.acq rfl rfl) <|
    .cons (t := 1) (.call (c := .tRead .ok) rfl
      ⟨⟨⟨⟨rfl, nt _⟩, fun _ => rfl⟩, fun l _ => by cases l <;> rfl⟩, fun _ => rfl⟩) <|
    .cons (t := 1) (.acq rfl rfl) <| .cons (t := 1) (.right rfl) <| .cons (t := 1) (.left rfl) (.nil _),
    .writer, ⟨_, _, rfl⟩, rfl⟩

/-! ## C65, C64: guards and poisoning -/

/-- **C65** on Windows. Whatever any number of threads do, when a call of a thread has returned, the thread
holds the guards it had before, without those the call was to drop and with those it was to get; when a
call that only tries has returned, it has got all its locks or none. -/
theorem C65_win_guards (scr : Bool) (t : WTerm) (ws : WinSt) (tr tr' : List (Nat × Label WinSt))
    (s0 s1 s2 : Sys WinSt) (i : Nat) (c : Call WinSt) (e0 : Exec t (Typed scr) (Sys.init ws) tr s0)
    (ec : LStep t (Typed scr) i s0 (.call c) s1) (e1 : Exec t (Typed scr) s1 tr' s2) (hn : NoCall i tr')
    (hd : (s2.thr i).code = .done) :
    if (s2.thr i).panicking then ∀ l, s2.holds i l = false else HeldAfter c (s0.holds i) (s2.holds i) :=
  guards_after scr t ws tr tr' s0 s1 s2 i c e0 ec e1 hn hd

/-- **C65** on Windows. A thread that has panicked, in a call or between calls, and has dropped what it had,
holds no lock. -/
theorem C65_win_dead_holds_nothing (scr : Bool) (t : WTerm) (ws : WinSt) (tr : List (Nat × Label WinSt))
    (s : Sys WinSt) (i : Nat) (e : Exec t (Typed scr) (Sys.init ws) tr s) (hd : (s.thr i).code = .done)
    (hp : (s.thr i).panicking = true) (l : LockId) : s.holds i l = false :=
  dead_holds_nothing scr t ws tr s i e hd hp l

/-- C65: a `try_lock_write` of a screen that gets none of the locks because another thread draws: it has the
write lock for a moment and gives it back. -/
example (t : WTerm) (ws : WinSt) : ∃ tr s0 s1 tr' s2, Exec t (Typed true) (Sys.init ws) tr s0 ∧
    LStep t (Typed true) 1 s0 (.call .sTryLockWrite) s1 ∧ Exec t (Typed true) s1 tr' s2 ∧
    NoCall 1 tr' ∧ (1, .acq .writer) ∈ tr' ∧ (s2.thr 1).code = .done ∧ (s2.thr 1).panicking = false ∧
    s2.holds 0 .data = true ∧ s2.holds 1 .writer = false := by
  have nt : ∀ H : LockId → Bool, (∀ l ∈ ([] : List LockId), H l = true) := by intro H l hl; cases hl
  refine ⟨_, _, _, [(1, .acq .writer), (1, .tau), (1, .rel .writer)], _,
    .cons (t := 0) (.call (c := .sDraw) rfl ⟨rfl, nt _⟩) (.cons (t := 0) (.acq rfl rfl) (.nil _)),
    .call rfl ⟨rfl, nt _⟩, .cons (t := 1) (.tryYes rfl rfl) (.cons (t := 1) (.tryNo rfl (fun h => by cases h))
      (.cons (t := 1) (.rel rfl) (.nil _))), ?_, by simp, rfl, rfl, rfl, rfl⟩
  intro c h
  simp at h

/-- **C64** on Windows. Whatever any number of threads do with a terminal or a screen, a lock that is free is
poisoned just if some thread has panicked while it held the lock. -/
theorem C64_win_poisoned_iff (scr : Bool) (t : WTerm) (ws : WinSt) (tr : List (Nat × Label WinSt))
    (s : Sys WinSt) (e : Exec t (Typed scr) (Sys.init ws) tr s) (l : LockId) (hf : holderOf l tr = none) :
    (s.mx l).poisoned = true ↔ PanickedHolding l tr :=
  poisoned_iff scr t ws tr s e l hf

/-- C64: a thread panics while it draws, and the lock of the data is poisoned then. -/
example (t : WTerm) (ws : WinSt) : ∃ tr s, Exec t (Typed true) (Sys.init ws) tr s ∧ holderOf .data tr = none ∧
    (s.mx .data).poisoned = true ∧ (s.mx .writer).poisoned = false := by
  have nt : ∀ H : LockId → Bool, (∀ l ∈ ([] : List LockId), H l = true) := by intro H l hl; cases hl
  exact ⟨_, _, .cons (t := 0) (.call (c := .sDraw) rfl ⟨rfl, nt _⟩) <| .cons (t := 0) (.acq rfl rfl) <|
    .cons (t := 0) (.crash (f := .ok) rfl) <| .cons (t := 0) (.rel rfl) (.nil _), rfl, rfl, rfl⟩

/-! ## C24, C60: the writer -/

/-- **C24** on Windows. Whatever any number of threads do: from when a thread has taken the write lock until
it releases it, the writer is used by that thread only, and the writer's state afterwards is the result
of just these uses, in order. -/
theorem C24_win_exclusive (scr : Bool) (t : WTerm) (ws : WinSt) (tr0 tr : List (Nat × Label WinSt)) (i : Nat)
    (s s' : Sys WinSt) (e0 : Exec t (Typed scr) (Sys.init ws) tr0 s) (ho : (s.mx .writer).owner = some i)
    (e : Exec t (Typed scr) s tr s') (hr : (i, .rel .writer) ∉ tr) :
    (∀ x ∈ uses tr, x.1 = i) ∧ applyUses ((uses tr).map (·.2)) s.ws = some s'.ws :=
  (uses_session e (good_typed_exec e0 (good_init _ _ ws)) ho hr).2

/-- **C60** on Windows. Any number of threads use one terminal (`scr = false`) or one screen, in any way, and
may panic anywhere. The uses of the writer are whole sessions one after another, in the order in which
threads took the write lock, and then those of the thread that has the lock now, if one has. Every
session is one thread's. The writer is in the state these uses lead to. -/
theorem C60_win_serial (scr : Bool) (t : WTerm) (ws : WinSt) (tr : List (Nat × Label WinSt)) (s : Sys WinSt)
    (e : Exec t (Typed scr) (Sys.init ws) tr s) :
    ∃ ss cur, uses tr = inTurn ss ++ cur ∧ takers tr = ss.map (·.1) ++ (s.mx .writer).owner.toList ∧
      (∀ x ∈ cur, (s.mx .writer).owner = some x.1) ∧
      applyUses ((inTurn ss ++ cur).map (·.2)) ws = some s.ws := by
  obtain ⟨ss, cur, h1, h2, -, h4, h5⟩ := serial (fin := none) (fun _ _ => tidy_none _ _)
    (fun _ _ _ => tidy_none _ _) e
  exact ⟨ss, cur, h1, h2, h4, h5⟩

/-- **C60** on Windows. If the threads make only calls of write guards, and nobody holds the write lock any
more, then the calls of all threads, session by session, made by one thread on the same terminal return
something each and leave the writer in the same state. -/
theorem C60_win_one_thread (scr : Bool) (t : WTerm) (ws : WinSt) (tr : List (Nat × Label WinSt))
    (s : Sys WinSt) (e : Exec t (Typed scr) (Sys.init ws) tr s)
    (hcalls : ∀ x ∈ uses tr, ∃ o : TOp, x.2 = WM.outcome (o.win t)) (hfree : (s.mx .writer).owner = none) :
    ∃ (cs : List (Nat × List TOp)) (res : List (TOp × Bool)),
      uses tr = (inTurn cs).map (fun x => (x.1, WM.outcome (x.2.win t))) ∧ takers tr = cs.map (·.1) ∧
      traceWin t (cs.flatMap (·.2)) ws = some (res, s.ws) := by
  obtain ⟨ss, cur, h1, h2, h4, h5⟩ := C60_win_serial scr t ws tr s e
  have hcur : cur = [] := List.eq_nil_iff_forall_not_mem.2 fun x hx => by
    have := h4 x hx
    rw [hfree] at this
    cases this
  subst hcur
  rw [List.append_nil] at h1 h5
  rw [hfree] at h2
  simp only [Option.toList_none, List.append_nil] at h2
  obtain ⟨cs, rfl⟩ := sessions_calls_of (g := fun o : TOp => WM.outcome (o.win t)) (fun x hx f hf => by
    refine hcalls (x.1, f) ?_
    rw [h1]
    exact List.mem_flatMap.2 ⟨x, hx, List.mem_map.2 ⟨f, hf, rfl⟩⟩)
  have h6 : (inTurn cs).map (·.2) = cs.flatMap (·.2) := by
    simp [inTurn, List.map_flatMap, Function.comp_def]
  rw [inTurn_map (fun o : TOp => WM.outcome (o.win t))] at h1 h5
  rw [List.map_map] at h5
  obtain ⟨res, h8⟩ := apply_traceWin (t := t) (ops := cs.flatMap (·.2)) (ws := ws) (ws' := s.ws) (by
    rw [← h6, List.map_map]
    exact h5)
  refine ⟨cs, res, h1, ?_, h8⟩
  rw [h2, List.map_map]
  rfl

/-- **C60** on Windows. So, under the conditions of C58, a console used by any number of threads shows in the
end the page that their sessions, one after another in the order in which the threads took the lock,
asked for. -/
theorem C60_win_shown (scr : Bool) (u : UEnv) (hsp : u.w ' ' = 1) (k : Nat) (t : WTerm) (ws : WinSt)
    (tr : List (Nat × Label WinSt)) (s : Sys WinSt) (c : Con) (o : OutBuf) (p : Page) (D : List WEv)
    (ho : c.outs ws.outH = some o) (hz : BufSize o.glyph.size) (hw : o.Whole)
    (hmode : o.mode.getLsbD 0 = true) (hplain : ws.theme = plainTheme)
    (hfresh : p.Fresh) (hshow : o.Presents t p)
    (ex : Exec t (Typed scr) (Sys.init ws) tr s)
    (hcalls : ∀ x ∈ uses tr, ∃ o : TOp, x.2 = WM.outcome (o.win t)) (hfree : (s.mx .writer).owner = none)
    (hlog : s.ws.log = ws.log ++ D) (hcon : c.Runs u k D) :
    ∃ (cs : List (Nat × List TOp)) (res : List (TOp × Bool)),
      uses tr = (inTurn cs).map (fun x => (x.1, WM.outcome (x.2.win t))) ∧ takers tr = cs.map (·.1) ∧
      traceWin t (cs.flatMap (·.2)) ws = some (res, s.ws) ∧
      ∀ p', (∀ op, (op, false) ∈ res → op.IsCursor) → p.run u (!o.mode.getLsbD 3) res = some p' →
        ∃ c' o', c.play u k D = some c' ∧ OnlyBuffer ws.outH c c' o o' ∧ o'.Presents t p' := by
  obtain ⟨cs, res, h1, h2, h3⟩ := C60_win_one_thread scr t ws tr s ex hcalls hfree
  exact ⟨cs, res, h1, h2, h3, fun p' hok hp =>
    C58_shown u hsp k t _ ws s.ws c o p p' res D ho hz hw hmode hplain hfresh hshow h3 hok hlog hcon hp⟩

/-- Thread 0 has a write guard and sets red; thread 1 starts to write `c`, and waits; thread 0 writes `a`
and drops its guard; thread 1 goes on. -/
example : ∃ tr s, Exec demoTerm (Typed false) (Sys.init (demoSt [⟨[], .ok⟩, ⟨[.input .other], .wrote 1⟩, ⟨[], .wrote 1⟩])) tr s ∧
    (∀ x ∈ uses tr, ∃ o : TOp, x.2 = WM.outcome (o.win demoTerm)) ∧ (s.mx .writer).owner = none ∧
    uses tr = (inTurn [(0, [TOp.fg (some .red), .write ['a']]), (1, [.write ['c']])]).map
      (fun x => (x.1, WM.outcome (x.2.win demoTerm))) ∧
    takers tr = [0, 1] ∧ ((checkPlay demoEnv 1 s.ws.log (textCon pageOut)).bind fun c => c.outs 2).map
      (fun o => ((List.range 2).map fun i => (o.glyph.cell ⟨0, i⟩, o.attr ⟨0, i⟩))) =
      some [(.narrow ['a'] (), 4), (.narrow ['c'] (), 4)] := by
  have nt : ∀ H : LockId → Bool, (∀ l ∈ ([] : List LockId), H l = true) := by intro H l hl; cases hl
  have nw : ∀ H : LockId → Bool, H .writer = true → (∀ l ∈ [LockId.writer], H l = true) := by
    intro H h l hl
    rw [List.mem_singleton.1 hl]
    exact h
  refine ⟨_, _,
    .cons (t := 0) (.call (c := .tLockWrite) rfl ⟨rfl, nt _⟩) <| .cons (t := 0) (.acq rfl rfl) <|
    .cons (t := 0) (.call (c := .twWrite (WM.outcome ((TOp.fg (some .red)).win demoTerm))) rfl ⟨rfl, nw _ rfl⟩) <|
    .cons (t := 0) (use_some rfl ?_) <|
    .cons (t := 1) (.call (c := .tWrite (WM.outcome ((TOp.write ['c']).win demoTerm))) rfl ⟨rfl, nt _⟩) <|
    .cons (t := 0) (.call (c := .twWrite (WM.outcome ((TOp.write ['a']).win demoTerm))) rfl ⟨rfl, nw _ rfl⟩) <|
    .cons (t := 0) (use_some rfl ?_) <|
    .cons (t := 0) (.call (c := .twDrop) rfl ⟨rfl, nw _ rfl⟩) <| .cons (t := 0) (.rel rfl) <|
    .cons (t := 1) (.acq rfl rfl) <| .cons (t := 1) (use_some rfl ?_) <|
    .cons (t := 1) (.rel rfl) (.nil _), ?_, rfl, rfl, rfl, ?_⟩
  · decide +kernel
  · decide +kernel
  · decide +kernel
  · intro x hx
    simp only [uses, List.mem_cons, List.not_mem_nil, or_false] at hx
    rcases hx with rfl | rfl | rfl
    · exact ⟨.fg (some .red), rfl⟩
    · exact ⟨.write ['a'], rfl⟩
    · exact ⟨.write ['c'], rfl⟩
  · decide +kernel

end Mortal
