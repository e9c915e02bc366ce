import Verif.Spec.Api
import Verif.Lemmas.Direct
import Verif.Lemmas.DirectWin
import Verif.Lemmas.WriterBytes

/-!
# Lemmas: the public methods
-/

namespace Mortal
open Spec

/-! ## Traces of public calls and of the calls below -/

/-- A trace of public calls and one of calls on guards: a flush or a release has no public call; a move
by nothing may have no call below. -/
inductive TraceOf : List (PubOp × Bool) → List (TOp × Bool) → Prop
  | nil : TraceOf [] []
  | op (o : PubOp) (r : Bool) {a b} : TraceOf a b → TraceOf ((o, r) :: a) ((PubOp.asks o, r) :: b)
  | idle (o : PubOp) {d : Dir} {a b} : PubOp.asks o = .move d 0 → TraceOf a b → TraceOf ((o, true) :: a) b
  | flush (r : Bool) {a b} : TraceOf a b → TraceOf a ((.flush, r) :: b)
  | release (r : Bool) {a b} : TraceOf a b → TraceOf a ((.release, r) :: b)

theorem TraceOf.append {a a' : List (PubOp × Bool)} {b b' : List (TOp × Bool)} (h : TraceOf a b)
    (h' : TraceOf a' b') : TraceOf (a ++ a') (b ++ b') := by
  induction h with
  | nil => exact h'
  | op o r _ ih => exact .op o r ih
  | idle o he _ ih => exact .idle o he ih
  | flush r _ ih => exact .flush r ih
  | release r _ ih => exact .release r ih

theorem Spec.Page.Below.after1 {u : UEnv} {p p2 p' : Page} (h : p.Below p2) {crlf : Bool} {op : TOp}
    (e : p.after u crlf op = some p') : ∃ p2', p2.after u crlf op = some p2' ∧ p'.Below p2' := by
  obtain ⟨q, h1, h2⟩ := h.after e
  cases op with
  | move d n =>
    by_cases hn : n = 0
    · simp only [Page.after, if_pos hn, Option.some.injEq] at e ⊢
      subst e
      refine ⟨_, rfl, h.1, ?_⟩
      rcases h.2 with h3 | h3
      · exact .inl (by rw [h3])
      · exact .inl (by rw [h3])
    · simp only [Page.after0, if_neg hn] at h1
      exact ⟨q, h1, h2⟩
  | _ => exact ⟨q, h1, h2⟩

/-- The page of the public calls is the page of the calls below. -/
theorem TraceOf.page {u : UEnv} {crlf : Bool} {a : List (PubOp × Bool)} {b : List (TOp × Bool)}
    (h : TraceOf a b) : ∀ {p p2 p' : Page}, p.Below p2 → p.runPub u crlf a = some p' →
      ∃ p2', p2.run u crlf b = some p2' ∧ p'.Below p2' := by
  induction h with
  | nil =>
    intro p p2 p' hb e
    cases e
    exact ⟨p2, rfl, hb⟩
  | @op o r a b _ ih =>
    intro p p2 p' hb e
    cases r with
    | true =>
      simp only [Page.runPub, List.map_cons, Page.run, Option.bind_eq_some_iff] at e
      obtain ⟨p1, e1, e2⟩ := e
      obtain ⟨q, q1, q2⟩ := hb.after1 e1
      obtain ⟨p2', r1, r2⟩ := ih q2 e2
      exact ⟨p2', by simp only [Page.run, q1, Option.bind_some]; exact r1, r2⟩
    | false =>
      simp only [Page.runPub, List.map_cons, Page.run] at e
      obtain ⟨p2', r1, r2⟩ := ih (hb.failed _) e
      exact ⟨p2', by simp only [Page.run]; exact r1, r2⟩
  | @idle o d a b he _ ih =>
    intro p p2 p' hb e
    simp only [Page.runPub, List.map_cons, Page.run, he, Page.after, if_true, Option.bind_some] at e
    refine ih ?_ e
    refine ⟨hb.1, .inr ?_⟩
    rcases hb.2 with h3 | h3 <;> rw [h3]
  | flush r _ ih =>
    intro p p2 p' hb e
    obtain ⟨p2', r1, r2⟩ := ih hb e
    refine ⟨p2', ?_, r2⟩
    cases r <;> simp only [Page.run, Page.after, Page.failed, Option.bind_some] <;> exact r1
  | release r _ ih =>
    intro p p2 p' hb e
    obtain ⟨p2', r1, r2⟩ := ih hb e
    refine ⟨p2', ?_, r2⟩
    cases r <;> simp only [Page.run, Page.after, Page.failed, Option.bind_some] <;> exact r1

theorem TraceOf.failed {a : List (PubOp × Bool)} {b : List (TOp × Bool)} (h : TraceOf a b)
    {op : TOp} (hm : (op, false) ∈ b) : (∃ o, (o, false) ∈ a ∧ PubOp.asks o = op) ∨
      op = .flush ∨ op = .release := by
  induction h with
  | nil => cases hm
  | op o r _ ih =>
    rcases List.mem_cons.mp hm with h1 | h1
    · cases h1
      exact .inl ⟨o, List.mem_cons_self .., rfl⟩
    · rcases ih h1 with ⟨o', h2, h3⟩ | h2
      · exact .inl ⟨o', List.mem_cons_of_mem _ h2, h3⟩
      · exact .inr h2
  | idle o he _ ih =>
    rcases ih hm with ⟨o', h2, h3⟩ | h2
    · exact .inl ⟨o', List.mem_cons_of_mem _ h2, h3⟩
    · exact .inr h2
  | flush r _ ih =>
    rcases List.mem_cons.mp hm with h1 | h1
    · cases h1; exact .inr (.inl rfl)
    · exact ih h1
  | release r _ ih =>
    rcases List.mem_cons.mp hm with h1 | h1
    · cases h1; exact .inr (.inr rfl)
    · exact ih h1

/-! ## Unix -/

theorem traceT_append (env : WEnv) : ∀ (a b : List TOp) (s s1 s2 : WS) (t1 t2 : List (TOp × Bool)),
    traceT env a s = some (t1, s1) → traceT env b s1 = some (t2, s2) →
    traceT env (a ++ b) s = some (t1 ++ t2, s2) := by
  intro a
  induction a with
  | nil =>
    intro b s s1 s2 t1 t2 h1 h2
    simp only [traceT, Option.some.injEq, Prod.mk.injEq] at h1
    obtain ⟨rfl, rfl⟩ := h1
    exact h2
  | cons op a ih =>
    intro b s s1 s2 t1 t2 h1 h2
    simp only [traceT, List.cons_append] at h1 ⊢
    cases ho : op.unix.run env s with
    | stop w => rw [ho] at h1; cases h1
    | ok s' =>
      rw [ho] at h1
      simp only [Option.map_eq_some_iff, Prod.mk.injEq] at h1 ⊢
      obtain ⟨⟨l, x⟩, h3, rfl, rfl⟩ := h1
      exact ⟨_, ih b s' x s2 l t2 h3 h2, rfl, rfl⟩
    | err e s' =>
      rw [ho] at h1
      simp only [Option.map_eq_some_iff, Prod.mk.injEq] at h1 ⊢
      obtain ⟨⟨l, x⟩, h3, rfl, rfl⟩ := h1
      exact ⟨_, ih b s' x s2 l t2 h3 h2, rfl, rfl⟩

/-- A release always returns `Ok`. -/
theorem traceT_release {env : WEnv} {s s' : WS} (h : (WOp.run env .sessionEnd s).state = some s') :
    traceT env [.release] s = some ([(.release, true)], s') := by
  simp only [traceT, TOp.unix]
  cases ho : WOp.run env .sessionEnd s with
  | ok x => rw [ho] at h; cases h; rfl
  | stop w => rw [ho] at h; cases h
  | err e x =>
    simp only [WOp.run] at ho
    cases hf : Mortal.flush s with
    | ok y => rw [hf] at ho; cases ho
    | err e' y => rw [hf] at ho; cases ho
    | stop w => rw [hf] at ho; cases ho

theorem guardUnix_asks (o : PubOp) : o.guardUnix = (PubOp.asks o).unix := by
  cases o with
  | setStyle st => cases st <;> rfl
  | writeStyled fg bg st x => cases st <;> rfl
  | _ => rfl

theorem oneCall_trace {env : WEnv} {op : TOp} {s s' : WS} {r : Option IoErr}
    (h : oneCall env op.unix s = some (r, s')) :
    traceT env [op, .release] s = some ([(op, r.isNone), (.release, true)], s') := by
  unfold oneCall at h
  cases ho : op.unix.run env s with
  | stop w => rw [ho] at h; cases h
  | ok x =>
    rw [ho] at h
    simp only [Option.map_eq_some_iff, Prod.mk.injEq] at h
    obtain ⟨y, h1, rfl, rfl⟩ := h
    have h2 := traceT_release h1
    simp only [traceT, ho] at h2 ⊢
    rw [h2]; rfl
  | err e x =>
    rw [ho] at h
    simp only [Option.map_eq_some_iff, Prod.mk.injEq] at h
    obtain ⟨y, h1, rfl, rfl⟩ := h
    have h2 := traceT_release h1
    simp only [traceT, ho] at h2 ⊢
    rw [h2]; rfl

/-- A method of `Terminal` is a guard with one call on it, or a move by nothing. -/
theorem callUnix_cases (env : WEnv) (s : WS) (o : PubOp) :
    o.callUnix env s = oneCall env (PubOp.asks o).unix s ∨
    (o.callUnix env s = some (none, s) ∧ ∃ d, PubOp.asks o = .move d 0) := by
  have mv : ∀ (d : Dir) (n : Nat), PubOp.asks o = .move d n →
      o.callUnix env s = (if n ≠ 0 then oneCall env (TOp.move d n).unix s else some (none, s)) →
      o.callUnix env s = oneCall env (PubOp.asks o).unix s ∨
      (o.callUnix env s = some (none, s) ∧ ∃ d, PubOp.asks o = .move d 0) := by
    intro d n h1 h2
    by_cases hn : n = 0
    · subst hn
      exact .inr ⟨h2, d, h1⟩
    · rw [if_pos hn] at h2
      exact .inl (by rw [h2, h1])
  cases o with
  | moveUp n => exact mv .up n rfl rfl
  | moveDown n => exact mv .down n rfl rfl
  | moveLeft n => exact mv .left n rfl rfl
  | moveRight n => exact mv .right n rfl rfl
  | setStyle st => cases st <;> exact .inl rfl
  | writeStyled fg bg st x => cases st <;> exact .inl rfl
  | _ => exact .inl rfl

theorem guardCalls_trace (env : WEnv) : ∀ (ops : List (Option PubOp)) (s s' : WS)
    (l : List (PubOp × Bool)), guardCallsUnix env ops s = some (l, s') →
    ∃ ts tr, traceT env ts s = some (tr, s') ∧ TraceOf l tr := by
  intro ops
  induction ops with
  | nil =>
    intro s s' l h
    simp only [guardCallsUnix, Option.some.injEq, Prod.mk.injEq] at h
    obtain ⟨rfl, rfl⟩ := h
    exact ⟨[], [], rfl, .nil⟩
  | cons o ops ih =>
    intro s s' l h
    cases o with
    | none =>
      simp only [guardCallsUnix] at h
      cases ho : WOp.run env .flush s with
      | stop w => rw [ho] at h; cases h
      | ok x =>
        rw [ho] at h
        obtain ⟨ts, tr, h1, h2⟩ := ih x s' l h
        exact ⟨.flush :: ts, _, by simp only [traceT, TOp.unix, ho, h1]; rfl, h2.flush true⟩
      | err e x =>
        rw [ho] at h
        obtain ⟨ts, tr, h1, h2⟩ := ih x s' l h
        exact ⟨.flush :: ts, _, by simp only [traceT, TOp.unix, ho, h1]; rfl, h2.flush false⟩
    | some op =>
      simp only [guardCallsUnix, guardUnix_asks] at h
      cases ho : (PubOp.asks op).unix.run env s with
      | stop w => rw [ho] at h; cases h
      | ok x =>
        rw [ho] at h
        simp only [Option.map_eq_some_iff, Prod.mk.injEq] at h
        obtain ⟨⟨l1, y⟩, h3, rfl, rfl⟩ := h
        obtain ⟨ts, tr, h1, h2⟩ := ih x _ _ h3
        exact ⟨PubOp.asks op :: ts, _, by simp only [traceT, ho, h1]; rfl, h2.op op true⟩
      | err e x =>
        rw [ho] at h
        simp only [Option.map_eq_some_iff, Prod.mk.injEq] at h
        obtain ⟨⟨l1, y⟩, h3, rfl, rfl⟩ := h
        obtain ⟨ts, tr, h1, h2⟩ := ih x _ _ h3
        exact ⟨PubOp.asks op :: ts, _, by simp only [traceT, ho, h1]; rfl, h2.op op false⟩

/-- A program's calls are calls on guards, the last of which has been released. -/
theorem runPub_trace (env : WEnv) : ∀ (acts : List PAct) (s s' : WS) (l : List (PubOp × Bool)),
    runPubUnix env acts s = some (l, s') → ∃ ts tr, traceT env ts s = some (tr, s') ∧ TraceOf l tr ∧
      (ts = [] ∨ ∃ ts', ts = ts' ++ [.release]) := by
  intro acts
  induction acts with
  | nil =>
    intro s s' l h
    simp only [runPubUnix, Option.some.injEq, Prod.mk.injEq] at h
    obtain ⟨rfl, rfl⟩ := h
    exact ⟨[], [], rfl, .nil, .inl rfl⟩
  | cons a acts ih =>
    intro s s' l h
    cases a with
    | call o =>
      simp only [runPubUnix] at h
      rcases callUnix_cases env s o with hc | ⟨hc, d, hd⟩
      · rw [hc] at h
        cases ho : oneCall env (PubOp.asks o).unix s with
        | none => rw [ho] at h; cases h
        | some x =>
          obtain ⟨r, s1⟩ := x
          rw [ho] at h
          simp only [Option.map_eq_some_iff, Prod.mk.injEq] at h
          obtain ⟨⟨l1, y⟩, h3, rfl, rfl⟩ := h
          obtain ⟨ts, tr, h1, h2, h4⟩ := ih s1 _ _ h3
          refine ⟨[PubOp.asks o, .release] ++ ts, _, traceT_append env _ _ _ _ _ _ _ (oneCall_trace ho) h1,
            (h2.release true).op o _, .inr ?_⟩
          rcases h4 with rfl | ⟨ts', rfl⟩
          · exact ⟨[PubOp.asks o], rfl⟩
          · exact ⟨[PubOp.asks o, .release] ++ ts', by simp⟩
      · rw [hc] at h
        simp only [Option.map_eq_some_iff, Prod.mk.injEq] at h
        obtain ⟨⟨l1, y⟩, h3, rfl, rfl⟩ := h
        obtain ⟨ts, tr, h1, h2, h4⟩ := ih s _ _ h3
        exact ⟨ts, tr, h1, h2.idle o hd, h4⟩
    | guard ops =>
      simp only [runPubUnix] at h
      cases ho : guardCallsUnix env ops s with
      | none => rw [ho] at h; cases h
      | some x =>
        obtain ⟨l0, s1⟩ := x
        rw [ho] at h
        dsimp only at h
        cases he : (WOp.run env .sessionEnd s1).state with
        | none => rw [he] at h; cases h
        | some s2 =>
          rw [he] at h
          simp only [Option.map_eq_some_iff, Prod.mk.injEq] at h
          obtain ⟨⟨l1, y⟩, h3, rfl, rfl⟩ := h
          obtain ⟨ts0, tr0, g1, g2⟩ := guardCalls_trace env ops s s1 l0 ho
          obtain ⟨ts, tr, h1, h2, h4⟩ := ih s2 _ _ h3
          refine ⟨ts0 ++ ([.release] ++ ts), _, traceT_append env _ _ _ _ _ _ _ g1
            (traceT_append env _ _ _ _ _ _ _ (traceT_release he) h1),
            g2.append (h2.release true), .inr ?_⟩
          rcases h4 with rfl | ⟨ts', rfl⟩
          · exact ⟨ts0, by simp⟩
          · exact ⟨ts0 ++ ([.release] ++ ts'), by simp⟩

/-! ## Delivery -/

theorem writeData_takes (buf : Bytes) : ∀ (os : List WriteRes) (off : Nat) (dev : Bytes),
    TakesAll os →
    match writeData buf os off dev with
    | .blocked => True
    | .done _ os' _ r => TakesAll os' ∧ r = none := by
  intro os
  induction os with
  | nil =>
    intro off dev h
    unfold writeData
    split
    · rename_i h1; split at h1
      · cases h1
      · trivial
    · rename_i h1; split at h1
      · cases h1; exact ⟨h, rfl⟩
      · cases h1
  | cons x os ih =>
    intro off dev h
    have ht : TakesAll os := fun r hr => h r (List.mem_cons_of_mem _ hr)
    unfold writeData
    by_cases ho : off = buf.length
    · rw [if_pos ho]; exact ⟨h, rfl⟩
    · rw [if_neg ho]
      rcases h x (List.mem_cons_self ..) with rfl | rfl
      · exact ih _ _ ht
      · exact ih _ _ ht

theorem flush_takes {s : WS} (h : TakesAll s.os) : Always (flush s) (fun s => TakesAll s.os) ∧
    ∀ e s', flush s ≠ .err e s' := by
  have hw := writeData_takes s.pending s.os 0 s.dev h
  unfold flush
  cases hd : writeData s.pending s.os 0 s.dev with
  | blocked => exact ⟨fun x hx => (by cases hx), nofun⟩
  | done n os dev r =>
    rw [hd] at hw
    obtain ⟨h1, rfl⟩ := hw
    dsimp only
    split
    · exact ⟨fun x hx => (by cases hx), nofun⟩
    · exact ⟨Always.ok h1, nofun⟩

theorem takes_inv (env : WEnv) : Inv4 env fun s => TakesAll s.os where
  attrs _ _ _ _ h := h
  expand c ps f s hf h := by
    unfold expand
    rcases hg : f ps with ⟨b, good⟩
    dsimp only
    cases good
    · exact Always.err h
    · exact Always.ok h
  flush s h := (flush_takes h).1
  write b s h := by
    unfold writeBytes
    refine Always.andThen ?_ ?_
    · split
      · exact (flush_takes h).1
      · exact Always.ok h
    · intro s h
      split
      · have hw := writeData_takes b s.os 0 s.dev h
        cases hd : writeData b s.os 0 s.dev with
        | blocked => exact fun x hx => by cases hx
        | done n os dev r =>
          rw [hd] at hw
          obtain ⟨h1, rfl⟩ := hw
          exact Always.ok h1
      · exact Always.ok h

theorem takes_short {os : List WriteRes} (h : TakesAll os) : NoShortWrites os := by
  intro n hn
  rcases h _ hn with h | h <;> cases h

theorem runW_app (env : WEnv) : ∀ (a b : List WOp) (s : WS),
    runW env (a ++ b) s = (runW env a s).bind (runW env b) := by
  intro a
  induction a with
  | nil => intro b s; rfl
  | cons op a ih =>
    intro b s
    simp only [List.cons_append, runW, Option.bind_assoc]
    congr 1
    funext x
    exact ih b x

/-- After a release nothing is pending. -/
theorem release_empties {env : WEnv} {s s' : WS} (h : TakesAll s.os)
    (he : WOp.run env .sessionEnd s = .ok s') : s'.pending = [] := by
  simp only [WOp.run] at he
  have hf := flush_takes h
  have hw := flush_whole s (takes_short h)
  cases hd : flush s with
  | ok x => rw [hd] at he hw; cases he; exact hw.2.2.1
  | err e x => exact absurd hd (hf.2 e x)
  | stop w => rw [hd] at he; cases he

/-! ## Windows -/

theorem traceWin_append (t : WTerm) : ∀ (a b : List TOp) (s s1 s2 : WinSt) (t1 t2 : List (TOp × Bool)),
    traceWin t a s = some (t1, s1) → traceWin t b s1 = some (t2, s2) →
    traceWin t (a ++ b) s = some (t1 ++ t2, s2) := by
  intro a
  induction a with
  | nil =>
    intro b s s1 s2 t1 t2 h1 h2
    simp only [traceWin, Option.some.injEq, Prod.mk.injEq] at h1
    obtain ⟨rfl, rfl⟩ := h1
    exact h2
  | cons op a ih =>
    intro b s s1 s2 t1 t2 h1 h2
    simp only [traceWin, List.cons_append] at h1 ⊢
    cases ho : op.win t s with
    | stop w => rw [ho] at h1; cases h1
    | ok _ s' =>
      rw [ho] at h1
      simp only [Option.map_eq_some_iff, Prod.mk.injEq] at h1 ⊢
      obtain ⟨⟨l, x⟩, h3, rfl, rfl⟩ := h1
      exact ⟨_, ih b s' x s2 l t2 h3 h2, rfl, rfl⟩
    | err e s' =>
      rw [ho] at h1
      simp only [Option.map_eq_some_iff, Prod.mk.injEq] at h1 ⊢
      obtain ⟨⟨l, x⟩, h3, rfl, rfl⟩ := h1
      exact ⟨_, ih b s' x s2 l t2 h3 h2, rfl, rfl⟩

theorem guardWin_asks (t : WTerm) (o : PubOp) : o.guardWin t = (PubOp.asks o).win t := by
  cases o with
  | setStyle st => cases st <;> rfl
  | writeStyled fg bg st x => cases st <;> rfl
  | _ => rfl

theorem callWin_cases (t : WTerm) (o : PubOp) :
    o.callWin t = (PubOp.asks o).win t ∨ (o.callWin t = pure () ∧ ∃ d, PubOp.asks o = .move d 0) := by
  have mv : ∀ (d : Dir) (n : Nat), PubOp.asks o = .move d n →
      o.callWin t = (if n ≠ 0 then (TOp.move d n).win t else pure ()) →
      o.callWin t = (PubOp.asks o).win t ∨ (o.callWin t = pure () ∧ ∃ d, PubOp.asks o = .move d 0) := by
    intro d n h1 h2
    by_cases hn : n = 0
    · subst hn
      exact .inr ⟨h2, d, h1⟩
    · rw [if_pos hn] at h2
      exact .inl (by rw [h2, h1])
  cases o with
  | moveUp n => exact mv .up n rfl rfl
  | moveDown n => exact mv .down n rfl rfl
  | moveLeft n => exact mv .left n rfl rfl
  | moveRight n => exact mv .right n rfl rfl
  | setStyle st => cases st <;> exact .inl rfl
  | writeStyled fg bg st x => cases st <;> exact .inl rfl
  | _ => exact .inl rfl

theorem callsWin_trace (t : WTerm) (f : PubOp → WM Unit)
    (hf : ∀ o, f o = (PubOp.asks o).win t ∨ (f o = pure () ∧ ∃ d, PubOp.asks o = .move d 0)) :
    ∀ (ops : List (Option PubOp)) (s s' : WinSt) (l : List (PubOp × Bool)),
    callsWin f ops s = some (l, s') → ∃ ts tr, traceWin t ts s = some (tr, s') ∧ TraceOf l tr ∧
      (∀ r, (TOp.flush, r) ∈ tr → r = true) ∧ ∀ r, (TOp.release, r) ∉ tr := by
  intro ops
  induction ops with
  | nil =>
    intro s s' l h
    simp only [callsWin, Option.some.injEq, Prod.mk.injEq] at h
    obtain ⟨rfl, rfl⟩ := h
    exact ⟨[], [], rfl, .nil, by simp, by simp⟩
  | cons o ops ih =>
    intro s s' l h
    cases o with
    | none =>
      obtain ⟨ts, tr, h1, h2, h3, h4⟩ := ih s s' l h
      refine ⟨.flush :: ts, _, by simp only [traceWin, TOp.win, winFlush]; rw [show (pure () : WM Unit) s = .ok () s from rfl]; simp only [h1]; rfl,
        h2.flush true, ?_, ?_⟩
      · intro r hr
        rcases List.mem_cons.mp hr with h | h
        · cases h; rfl
        · exact h3 r h
      · intro r hr
        rcases List.mem_cons.mp hr with h | h
        · cases h
        · exact h4 r h
    | some op =>
      have hne : PubOp.asks op ≠ .flush ∧ PubOp.asks op ≠ .release := by
        cases op <;> exact ⟨nofun, nofun⟩
      simp only [callsWin] at h
      rcases hf op with ho | ⟨ho, d, hd⟩
      · rw [ho] at h
        have done : ∀ (r : Bool) (x : WinSt) (l1 : List (PubOp × Bool)),
            callsWin f ops x = some (l1, s') → l = (op, r) :: l1 →
            (∀ ts tr, traceWin t ts x = some (tr, s') →
              traceWin t (PubOp.asks op :: ts) s = some ((PubOp.asks op, r) :: tr, s')) →
            ∃ ts tr, traceWin t ts s = some (tr, s') ∧ TraceOf l tr ∧
              (∀ r, (TOp.flush, r) ∈ tr → r = true) ∧ ∀ r, (TOp.release, r) ∉ tr := by
          rintro r x l1 hx rfl ht
          obtain ⟨ts, tr, h1, h2, h3, h4⟩ := ih x _ _ hx
          refine ⟨_, _, ht ts tr h1, h2.op op r, ?_, ?_⟩
          · intro r' hr
            rcases List.mem_cons.mp hr with h | h
            · exact absurd (congrArg Prod.fst h).symm hne.1
            · exact h3 r' h
          · intro r' hr
            rcases List.mem_cons.mp hr with h | h
            · exact absurd (congrArg Prod.fst h).symm hne.2
            · exact h4 r' h
        cases hr : (PubOp.asks op).win t s with
        | stop w => rw [hr] at h; cases h
        | ok a x =>
          rw [hr] at h
          simp only [Option.map_eq_some_iff, Prod.mk.injEq] at h
          obtain ⟨⟨l1, y⟩, h3, h4, rfl⟩ := h
          exact done true x l1 h3 h4.symm fun ts tr h1 => by simp only [traceWin, hr, h1]; rfl
        | err e x =>
          rw [hr] at h
          simp only [Option.map_eq_some_iff, Prod.mk.injEq] at h
          obtain ⟨⟨l1, y⟩, h3, h4, rfl⟩ := h
          exact done false x l1 h3 h4.symm fun ts tr h1 => by simp only [traceWin, hr, h1]; rfl
      · rw [ho] at h
        rw [show (pure () : WM Unit) s = .ok () s from rfl] at h
        simp only [Option.map_eq_some_iff, Prod.mk.injEq] at h
        obtain ⟨⟨l1, y⟩, h3, rfl, rfl⟩ := h
        obtain ⟨ts, tr, h1, h2, h5, h6⟩ := ih s _ _ h3
        exact ⟨ts, tr, h1, h2.idle op hd, h5, h6⟩

theorem runPubWin_trace (t : WTerm) : ∀ (acts : List PAct) (s s' : WinSt) (l : List (PubOp × Bool)),
    runPubWin t acts s = some (l, s') → ∃ ts tr, traceWin t ts s = some (tr, s') ∧ TraceOf l tr ∧
      (∀ r, (TOp.flush, r) ∈ tr → r = true) ∧ ∀ r, (TOp.release, r) ∉ tr := by
  intro acts
  induction acts with
  | nil =>
    intro s s' l h
    simp only [runPubWin, Option.some.injEq, Prod.mk.injEq] at h
    obtain ⟨rfl, rfl⟩ := h
    exact ⟨[], [], rfl, .nil, by simp, by simp⟩
  | cons a acts ih =>
    intro s s' l h
    have step : ∀ (f : PubOp → WM Unit) (ops : List (Option PubOp)),
        (∀ o, f o = (PubOp.asks o).win t ∨ (f o = pure () ∧ ∃ d, PubOp.asks o = .move d 0)) →
        (match callsWin f ops s with
          | some (l, s') => (runPubWin t acts s').map fun (l', s'') => (l ++ l', s'')
          | none => none) = some (l, s') →
        ∃ ts tr, traceWin t ts s = some (tr, s') ∧ TraceOf l tr ∧
          (∀ r, (TOp.flush, r) ∈ tr → r = true) ∧ ∀ r, (TOp.release, r) ∉ tr := by
      intro f ops hf h
      cases ho : callsWin f ops s with
      | none => rw [ho] at h; cases h
      | some x =>
        obtain ⟨l0, s1⟩ := x
        rw [ho] at h
        simp only [Option.map_eq_some_iff, Prod.mk.injEq] at h
        obtain ⟨⟨l1, y⟩, h3, rfl, rfl⟩ := h
        obtain ⟨ts0, tr0, g1, g2, g3, g4⟩ := callsWin_trace t f hf ops s s1 l0 ho
        obtain ⟨ts, tr, h1, h2, h5, h6⟩ := ih s1 _ _ h3
        refine ⟨ts0 ++ ts, _, traceWin_append t _ _ _ _ _ _ _ g1 h1, g2.append h2, ?_, ?_⟩
        · intro r hr
          rcases List.mem_append.mp hr with h | h
          · exact g3 r h
          · exact h5 r h
        · intro r hr
          rcases List.mem_append.mp hr with h | h
          · exact g4 r h
          · exact h6 r h
    cases a with
    | call o => exact step _ [some o] (callWin_cases t) h
    | guard ops => exact step _ ops (fun o => .inl (guardWin_asks t o)) h

theorem Spec.Page.Below.presents {t : WTerm} {p p2 : Page} (h : p.Below p2) {o : OutBuf}
    (hs : o.Presents t p2) : o.Presents t p := by
  obtain ⟨hv, h | h⟩ := h
  · obtain ⟨g, v⟩ := p
    obtain ⟨g2, v2⟩ := p2
    simp only at hv h
    subst hv h
    exact hs
  · refine ⟨?_, ?_, ?_, ?_, ?_, ?_, ?_, ?_, hs.pend⟩
    · rw [h]; exact hs.size
    · rw [h]; exact hs.cell
    · rw [h]; exact hs.narrow
    · rw [h]; exact hs.wide
    · rw [h]; exact hs.cur
    · rw [h]; intro c hc; cases hc
    · rw [h]; exact hs.ink
    · rw [hv]; exact hs.visible

theorem Spec.Page.Below.shown {fill : DevAttrs → DevAttrs} {p p2 : Page} (h : p.Below p2) {e : Emu}
    (hs : e.Shows fill p2) : e.Shows fill p := by
  obtain ⟨s1, s2, s3, s4, s5, s6⟩ := hs
  refine ⟨by rw [h.size, s1], fun q => ?_, by rw [h.cur, s3], fun c hc => ?_, by rw [h.attrs, s5],
    by rw [h.1, s6]⟩
  · rw [s2]; rcases h.2 with e | e <;> rw [e]
  · rcases h.2 with e | e
    · exact s4 c (by rw [← e]; exact hc)
    · rw [e] at hc; cases hc

end Mortal
