import Verif.Lemmas.Serial
import Verif.Props.Direct
import Verif.Props.Locks

/-! # C60: several threads using one terminal, or one after another -/

namespace Mortal
open Spec

/-- C60. Any number of threads use one terminal (`scr = false`) or one screen, in any way, and may panic
anywhere. The uses of the writer are whole sessions one after another, in the order in which threads
took the write lock, and then those of the thread that has the lock now, if one has. Every session is
one thread's, and its last use is the end of a session (which flushes). The
writer is in the state these uses lead to. -/
theorem C60_serial (scr : Bool) (env : WEnv) (ws : WS) (tr : List (Nat × Label WS)) (s : Sys WS)
    (e : Exec env (Typed scr) (Sys.init ws) tr s) :
    ∃ ss cur, uses tr = inTurn ss ++ cur ∧ takers tr = ss.map (·.1) ++ (s.mx .writer).owner.toList ∧
      (∀ x ∈ ss, x.2.getLast? = some (WOp.sessionEnd.run env)) ∧
      (∀ x ∈ cur, (s.mx .writer).owner = some x.1) ∧
      applyUses ((inTurn ss ++ cur).map (·.2)) ws = some s.ws := by
  obtain ⟨ss, cur, h1, h2, h3, h4, h5⟩ := serial (tidy_code env) (tidy_unwind env) e
  exact ⟨ss, cur, h1, h2, fun x hx => h3 x hx _ rfl, h4, h5⟩

/-- C60. If the threads make only calls of write guards, and nobody holds the write lock any more, then
the calls of all threads, session by session, made by one thread on the same terminal return something
each and leave the writer in the same state. -/
theorem C60_one_thread (scr : Bool) (env : WEnv) (ws : WS) (tr : List (Nat × Label WS)) (s : Sys WS)
    (e : Exec env (Typed scr) (Sys.init ws) tr s)
    (hcalls : ∀ x ∈ uses tr, ∃ o : TOp, x.2 = o.unix.run env) (hfree : (s.mx .writer).owner = none) :
    ∃ (cs : List (Nat × List TOp)) (res : List (TOp × Bool)),
      uses tr = (inTurn cs).map (fun x => (x.1, x.2.unix.run env)) ∧ takers tr = cs.map (·.1) ∧
      (∀ x ∈ cs, x.2.getLast? = some .release) ∧
      traceT env (cs.flatMap (·.2)) ws = some (res, s.ws) := by
  obtain ⟨ss, cur, h1, h2, h3, h4, h5⟩ := C60_serial scr env ws tr s e
  have hcur : cur = [] := List.eq_nil_iff_forall_not_mem.2 fun x hx => by
    have := h4 x hx
    rw [hfree] at this
    cases this
  subst hcur
  rw [List.append_nil] at h1 h5
  rw [hfree] at h2
  simp only [Option.toList_none, List.append_nil] at h2
  obtain ⟨cs, rfl, h7⟩ := sessions_calls (env := env) (fun x hx f hf => by
    refine hcalls (x.1, f) ?_
    rw [h1]
    exact List.mem_flatMap.2 ⟨x, hx, List.mem_map.2 ⟨f, hf, rfl⟩⟩) h3
  have h6 : (inTurn cs).map (·.2) = cs.flatMap (·.2) := by
    simp [inTurn, List.map_flatMap, Function.comp_def]
  rw [inTurn_map (fun o : TOp => o.unix.run env)] at h1 h5
  rw [List.map_map] at h5
  obtain ⟨res, h8⟩ := apply_trace (env := env) (ops := cs.flatMap (·.2)) (ws := ws) (ws' := s.ws) (by
    rw [← h6, List.map_map]
    exact h5)
  refine ⟨cs, res, h1, ?_, h7, h8⟩
  rw [h2, List.map_map]
  rfl

/-- C60. So, under the conditions of C57, a terminal used by any number of threads shows in the end the
page that their sessions, one after another in the order in which the threads took the lock, asked
for. -/
theorem C60_shown (scr : Bool) (env : WEnv) (hdb : DirectDB env) (u : UEnv) (crlf : Bool)
    (fill : DevAttrs → DevAttrs) (os : List WriteRes) (e : Emu) (p : Page)
    (tr : List (Nat × Label WS)) (s : Sys WS)
    (hl : p.grid.size.lines ≤ 2 ^ 32) (hc : p.grid.size.columns ≤ 2 ^ 32)
    (hfresh : p.Fresh) (hshow : e.Shows fill p)
    (ex : Exec env (Typed scr) (Sys.init (WS.new os)) tr s)
    (hcalls : ∀ x ∈ uses tr, ∃ o : TOp, x.2 = o.unix.run env) (hfree : (s.mx .writer).owner = none) :
    ∃ (cs : List (Nat × List TOp)) (res : List (TOp × Bool)),
      uses tr = (inTurn cs).map (fun x => (x.1, x.2.unix.run env)) ∧ takers tr = cs.map (·.1) ∧
      (∀ x ∈ cs, x.2.getLast? = some .release) ∧
      traceT env (cs.flatMap (·.2)) (WS.new os) = some (res, s.ws) ∧
      ∀ p', p.run u crlf res = some p' → ∃ e', e.play u crlf fill s.ws.log = some e' ∧ e'.Shows fill p' := by
  obtain ⟨cs, res, h1, h2, h3, h4⟩ := C60_one_thread scr env _ tr s ex hcalls hfree
  exact ⟨cs, res, h1, h2, h3, h4, fun p' hp =>
    C57_shown env hdb u crlf fill _ os e p p' res s.ws hl hc hfresh hshow h4 hp⟩

/-! ## Example -/

theorem use_some {ε σ : Type} [LockEnv ε σ] {env : ε} {may : (LockId → Bool) → Call σ → Prop} {t : Nat} {s : Sys σ}
    {f : σ → Outcome σ} {k : Code σ} (h : (s.thr t).code = .use f k) (hs : (f s.ws).state.isSome = true) :
    LStep env may t s (.use f) { s.goto t k with ws := (f s.ws).state.get hs } :=
  .use h (by simp)

/-- Thread 0 has a write guard and writes `a` in red; thread 1 starts to write `c`, and waits; thread 0
writes `b` and drops its guard; thread 1 goes on. -/
example : ∃ tr s, Exec demoDB (Typed false) (Sys.init (WS.new [.all, .all])) tr s ∧
    (∀ x ∈ uses tr, ∃ o : TOp, x.2 = o.unix.run demoDB) ∧ (s.mx .writer).owner = none ∧
    uses tr = (inTurn [(0, [TOp.fg (some .red), .write ['a'], .write ['b'], .release]),
      (1, [.write ['c'], .release])]).map (fun x => (x.1, x.2.unix.run demoDB)) ∧
    takers tr = [0, 1] ∧
    (s.ws.log = [.cap .setAForeground [1], .text [97], .text [98], .text [99]]) := by
  have nt : ∀ H : LockId → Bool, (∀ l ∈ ([] : List LockId), H l = true) := by intro H l hl; cases hl
  have nw : ∀ H : LockId → Bool, H .writer = true → (∀ l ∈ [LockId.writer], H l = true) := by
    intro H h l hl
    rw [List.mem_singleton.1 hl]
    exact h
  refine ⟨_, _,
    .cons (t := 0) (.call (c := .tLockWrite) rfl ⟨rfl, nt _⟩) <| .cons (t := 0) (.acq rfl rfl) <|
    .cons (t := 0) (.call (c := .twWrite ((TOp.fg (some .red)).unix.run demoDB)) rfl ⟨rfl, nw _ rfl⟩) <|
    .cons (t := 0) (use_some rfl ?_) <|
    .cons (t := 0) (.call (c := .twWrite ((TOp.write ['a']).unix.run demoDB)) rfl ⟨rfl, nw _ rfl⟩) <|
    .cons (t := 0) (use_some rfl ?_) <|
    .cons (t := 1) (.call (c := .tWrite ((TOp.write ['c']).unix.run demoDB)) rfl ⟨rfl, nt _⟩) <|
    .cons (t := 0) (.call (c := .twWrite ((TOp.write ['b']).unix.run demoDB)) rfl ⟨rfl, nw _ rfl⟩) <|
    .cons (t := 0) (use_some rfl ?_) <|
    .cons (t := 0) (.call (c := .twDrop) rfl ⟨rfl, nw _ rfl⟩) <|
    .cons (t := 0) (use_some rfl ?_) <| .cons (t := 0) (.rel rfl) <|
    .cons (t := 1) (.acq rfl rfl) <| .cons (t := 1) (use_some rfl ?_) <|
    .cons (t := 1) (use_some rfl ?_) <| .cons (t := 1) (.rel rfl) (.nil _), ?_, rfl, rfl, rfl, ?_⟩
  · decide +kernel
  · decide +kernel
  · decide +kernel
  · decide +kernel
  · decide +kernel
  · decide +kernel
  · intro x hx
    simp only [uses, List.mem_cons, List.not_mem_nil, or_false] at hx
    rcases hx with rfl | rfl | rfl | rfl | rfl | rfl
    · exact ⟨.fg (some .red), rfl⟩
    · exact ⟨.write ['a'], rfl⟩
    · exact ⟨.write ['b'], rfl⟩
    · exact ⟨.release, rfl⟩
    · exact ⟨.write ['c'], rfl⟩
    · exact ⟨.release, rfl⟩
  · decide +kernel

end Mortal
