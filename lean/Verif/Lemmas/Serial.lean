import Verif.Spec.Serial
import Verif.Lemmas.Locks

/-! # Lemmas about sessions of several threads -/

namespace Mortal
open Spec

/-- The write lock is released only directly after `fin`, if there is that; `p` says whether the last
thing done was that. -/
def Tidy {σ : Type} (fin : Option (σ → Outcome σ)) : Prop → Code σ → Prop
  | _, .done => True
  | _, .acq _ k p => Tidy fin False k ∧ Tidy fin False p
  | _, .tryAcq _ y n => Tidy fin False y ∧ Tidy fin False n
  | p, .rel l k => (l = .writer → fin ≠ none → p) ∧ Tidy fin False k
  | _, .use f k => Tidy fin (∀ g, fin = some g → f = g) k
  | _, .either a b => Tidy fin False a ∧ Tidy fin False b
  | _, .panic => True

theorem Tidy.mono {fin : Option (σ → Outcome σ)} {p q : Prop} (h : p → q) {c : Code σ} (hc : Tidy fin p c) : Tidy fin q c := by
  cases c with
  | rel l k => exact ⟨fun e x => h (hc.1 e x), hc.2⟩
  | _ => exact hc

theorem tidy_code (env : WEnv) (c : Call WS) (p : Prop) : Tidy (some (WOp.sessionEnd.run env)) p (c.code env) := by
  cases c <;> simp [Call.code, Code.lock, Code.dropW, Code.dropS, Code.handle, Code.sread, Tidy]

theorem tidy_unwind (env : WEnv) (f : WS → Outcome WS) (H : LockId → Bool) (p : Prop) :
    Tidy (some (WOp.sessionEnd.run env)) p (unwindCode env f H) := by
  cases h0 : H .reader <;> cases h1 : H .writer <;> cases h2 : H .data <;>
    simp [unwindCode, Code.dropW, Tidy, h0, h1, h2]

/-- What is known about the sessions after a part of an execution. -/
structure Sessions {σ : Type} (fin : Option (σ → Outcome σ)) (s : Sys σ) (us : List (Nat × (σ → Outcome σ))) (ts : List Nat)
    (ss : List (Nat × List (σ → Outcome σ))) (cur : List (Nat × (σ → Outcome σ))) : Prop where
  all : us = inTurn ss ++ cur
  took : ts = ss.map (·.1) ++ (s.mx .writer).owner.toList
  ended : ∀ x ∈ ss, ∀ g, fin = some g → x.2.getLast? = some g
  current : ∀ x ∈ cur, (s.mx .writer).owner = some x.1
  tidy : ∀ t, Tidy fin ((s.mx .writer).owner = some t ∧ ∀ g, fin = some g → cur.getLast? = some (t, g))
    (s.thr t).code

/-- What a step adds to the uses. -/
def useOf {σ : Type} (t : Nat) : Label σ → List (Nat × (σ → Outcome σ))
  | .use f => [(t, f)]
  | _ => []

/-- What a step adds to the threads that took the write lock. -/
def takerOf {σ : Type} (t : Nat) : Label σ → List Nat
  | .acq .writer => [t]
  | _ => []

theorem uses_cons (t : Nat) (a : Label σ) (tr : List (Nat × Label σ)) :
    uses ((t, a) :: tr) = useOf t a ++ uses tr := by cases a <;> rfl

theorem takers_cons (t : Nat) (a : Label σ) (tr : List (Nat × Label σ)) :
    takers ((t, a) :: tr) = takerOf t a ++ takers tr := by
  cases a with
  | acq l => cases l <;> rfl
  | _ => rfl

theorem Sessions.move {fin : Option (σ → Outcome σ)} {s s1 : Sys σ} {us : List (Nat × (σ → Outcome σ))} {ts : List Nat}
    {ss : List (Nat × List (σ → Outcome σ))} {cur : List (Nat × (σ → Outcome σ))} {t : Nat} {c : Code σ}
    (h : Sessions fin s us ts ss cur) (ho : (s1.mx .writer).owner = (s.mx .writer).owner)
    (hthr : ∀ i, i ≠ t → s1.thr i = s.thr i) (hc : (s1.thr t).code = c)
    (ht : Tidy fin ((s.mx .writer).owner = some t ∧ ∀ g, fin = some g → cur.getLast? = some (t, g)) c) :
    Sessions fin s1 us ts ss cur := by
  refine ⟨h.all, by rw [ho]; exact h.took, h.ended, by rw [ho]; exact h.current, fun i => ?_⟩
  rw [ho]
  by_cases hi : i = t
  · subst hi
    rw [hc]
    exact ht
  · rw [hthr i hi]
    exact h.tidy i

theorem Sessions.take {fin : Option (σ → Outcome σ)} {s : Sys σ} {us : List (Nat × (σ → Outcome σ))} {ts : List Nat}
    {ss : List (Nat × List (σ → Outcome σ))} {cur : List (Nat × (σ → Outcome σ))} {t : Nat} {l : LockId}
    {c : Code σ} {p : Bool} (h : Sessions fin s us ts ss cur) (hf : (s.mx l).owner = none)
    (ht : Tidy fin False c) :
    Sessions fin ((s.setOwner l (some t) p).goto t c) us (ts ++ takerOf t (.acq l : Label σ)) ss cur := by
  cases l with
  | writer =>
    have hcur : cur = [] := List.eq_nil_iff_forall_not_mem.2 fun x hx => by
      have := h.current x hx
      rw [hf] at this
      cases this
    subst hcur
    refine ⟨h.all, ?_, h.ended, by simp, fun i => ?_⟩
    · have := h.took
      rw [hf] at this
      simp only [Option.toList_none, List.append_nil] at this
      rw [this]
      rfl
    · by_cases hi : i = t
      · subst hi
        rw [code_goto]
        exact ht.mono False.elim
      · rw [code_goto_other c hi]
        exact (h.tidy i).mono fun x => by rw [hf] at x; cases x.1
  | reader =>
    simp only [takerOf, List.append_nil]
    exact h.move rfl (fun i hi => code_goto_other c hi) (code_goto _ _ _) (ht.mono False.elim)
  | data =>
    simp only [takerOf, List.append_nil]
    exact h.move rfl (fun i hi => code_goto_other c hi) (code_goto _ _ _) (ht.mono False.elim)

theorem mine_inTurn {α : Type} {t : Nat} {l : List (Nat × α)} (h : ∀ x ∈ l, x.1 = t) :
    (l.map (·.2)).map (fun a => (t, a)) = l := by
  rw [List.map_map]
  conv => rhs; rw [← List.map_id l]
  exact List.map_congr_left fun x hx => by rw [← h x hx]; rfl

theorem sessions_step [LockEnv ε σ] [LawfulLocks ε σ] {fin : Option (σ → Outcome σ)} {scr : Bool} {env : ε} {may : (LockId → Bool) → Call σ → Prop} {t : Nat} {s s' : Sys σ}
    {a : Label σ} {us : List (Nat × (σ → Outcome σ))} {ts : List Nat}
    {ss : List (Nat × List (σ → Outcome σ))} {cur : List (Nat × (σ → Outcome σ))}
    (htc : ∀ c p, Tidy fin p (LockEnv.code env c)) (htu : ∀ f H p, Tidy fin p (LockEnv.unwind env f H))
    (hg : AllGood False scr s) (h : Sessions fin s us ts ss cur) (st : LStep env may t s a s') :
    ∃ ss' cur', Sessions fin s' (us ++ useOf t a) (ts ++ takerOf t a) ss' cur' := by
  have ht := h.tidy t
  cases st with
  | call e hm =>
    simp only [useOf, takerOf, List.append_nil]
    exact ⟨ss, cur, h.move rfl (fun i hi => code_goto_other _ hi) (code_goto _ _ _) (htc ..)⟩
  | @acq l k p e hf =>
    rw [e] at ht
    simp only [useOf, List.append_nil]
    refine ⟨ss, cur, h.take hf ?_⟩
    split
    · exact ht.2
    · exact ht.1
  | tryYes e hf =>
    rw [e] at ht
    simp only [useOf, List.append_nil]
    exact ⟨ss, cur, h.take hf ht.1⟩
  | tryNo e hf =>
    rw [e] at ht
    simp only [useOf, takerOf, List.append_nil]
    exact ⟨ss, cur, h.move rfl (fun i hi => code_goto_other _ hi) (code_goto _ _ _) (ht.2.mono False.elim)⟩
  | @rel l k e =>
    rw [e] at ht
    simp only [useOf, takerOf, List.append_nil]
    cases l with
    | writer =>
      have ho : (s.mx .writer).owner = some t := by
        have hi := hg t
        rw [e] at hi
        exact of_decide_eq_true hi.1
      have hl : ∀ g, fin = some g → cur.getLast? = some (t, g) := fun g hg =>
        (ht.1 rfl (by rw [hg]; nofun)).2 g hg
      have hall : ∀ x ∈ cur, x.1 = t := fun x hx => by
        have := h.current x hx
        rw [ho] at this
        exact (Option.some.inj this).symm
      refine ⟨ss ++ [(t, cur.map (·.2))], [], ?_, ?_, ?_, by simp, fun i => ?_⟩
      · rw [h.all]
        simp only [inTurn, List.flatMap_append, List.flatMap_cons, List.flatMap_nil, List.append_nil,
          mine_inTurn hall]
      · have h1 := h.took
        rw [ho] at h1
        rw [h1]
        simp [Sys.goto, Sys.setOwner]
      · intro x hx
        rcases List.mem_append.1 hx with hx | hx
        · exact h.ended x hx
        · rw [List.mem_singleton.1 hx]
          intro g hg
          simp only [List.getLast?_map, hl g hg, Option.map_some]
      · by_cases hi : i = t
        · subst hi
          rw [code_goto]
          exact ht.2.mono False.elim
        · rw [code_goto_other k hi]
          refine (h.tidy i).mono fun x => ?_
          rw [ho] at x
          exact (hi (Option.some.inj x.1).symm).elim
    | reader =>
      exact ⟨ss, cur, h.move rfl (fun i hi => code_goto_other k hi) (code_goto _ _ _) (ht.2.mono False.elim)⟩
    | data =>
      exact ⟨ss, cur, h.move rfl (fun i hi => code_goto_other k hi) (code_goto _ _ _) (ht.2.mono False.elim)⟩
  | @use f k w e hw =>
    have hi := hg t
    rw [e] at ht hi
    have ho := of_decide_eq_true hi.1
    simp only [takerOf, List.append_nil]
    refine ⟨ss, cur ++ [(t, f)], ?_, h.took, h.ended, ?_, fun i => ?_⟩
    · rw [h.all, List.append_assoc]
      rfl
    · intro x hx
      rcases List.mem_append.1 hx with hx | hx
      · exact h.current x hx
      · rw [List.mem_singleton.1 hx]
        exact ho
    · by_cases hi : i = t
      · subst hi
        have e1 : ({ s.goto i k with ws := w } : Sys σ).thr = (s.goto i k).thr := rfl
        rw [e1, code_goto]
        refine Tidy.mono (p := ∀ g, fin = some g → f = g) (fun x => ⟨ho, fun g hg => ?_⟩) ht
        rw [List.getLast?_append]
        simp [x g hg]
      · have e1 : ({ s.goto t k with ws := w } : Sys σ).thr = (s.goto t k).thr := rfl
        rw [e1, code_goto_other k hi]
        refine (h.tidy i).mono fun x => ?_
        rw [ho] at x
        exact (hi (Option.some.inj x.1).symm).elim
  | left e =>
    rw [e] at ht
    simp only [useOf, takerOf, List.append_nil]
    exact ⟨ss, cur, h.move rfl (fun i hi => code_goto_other _ hi) (code_goto _ _ _) (ht.1.mono False.elim)⟩
  | right e =>
    rw [e] at ht
    simp only [useOf, takerOf, List.append_nil]
    exact ⟨ss, cur, h.move rfl (fun i hi => code_goto_other _ hi) (code_goto _ _ _) (ht.2.mono False.elim)⟩
  | @crash f e =>
    simp only [useOf, takerOf, List.append_nil]
    exact ⟨ss, cur, h.move (t := t) (c := LockEnv.unwind env f (s.holds t)) rfl
      (fun i hi => by simp [Sys.unwind, hi]) (by simp [Sys.unwind]) (htu ..)⟩

theorem sessions_exec [LockEnv ε σ] [LawfulLocks ε σ] {fin : Option (σ → Outcome σ)} {scr : Bool} {env : ε} {s s' : Sys σ} {tr : List (Nat × Label σ)}
    (htc : ∀ c p, Tidy fin p (LockEnv.code env c)) (htu : ∀ f H p, Tidy fin p (LockEnv.unwind env f H))
    (e : Exec env (Typed scr) s tr s') (hg : AllGood False scr s)
    {us : List (Nat × (σ → Outcome σ))} {ts : List Nat} {ss : List (Nat × List (σ → Outcome σ))}
    {cur : List (Nat × (σ → Outcome σ))} (h : Sessions fin s us ts ss cur) :
    ∃ ss' cur', Sessions fin s' (us ++ uses tr) (ts ++ takers tr) ss' cur' := by
  induction e generalizing us ts ss cur with
  | nil s => exact ⟨ss, cur, by simpa [uses, takers] using h⟩
  | @cons s s1 s2 i a tr st ex ih =>
    obtain ⟨ss1, cur1, h1⟩ := sessions_step htc htu hg h st
    obtain ⟨ss2, cur2, h2⟩ := ih (good_step (fun H c _ hm => LawfulLocks.good_typed scr env H c hm) hg st) h1
    rw [uses_cons, takers_cons, ← List.append_assoc, ← List.append_assoc]
    exact ⟨ss2, cur2, h2⟩

theorem sessions_init (fin : Option (σ → Outcome σ)) (ws : σ) : Sessions fin (Sys.init ws) [] [] [] [] :=
  ⟨rfl, rfl, by simp, by simp, fun _ => trivial⟩

theorem apply_exec [LockEnv ε σ] [LawfulLocks ε σ] {scr : Bool} {env : ε} {s s' : Sys σ} {tr : List (Nat × Label σ)}
    (e : Exec env (Typed scr) s tr s') (h : AllGood False scr s) :
    applyUses ((uses tr).map (·.2)) s.ws = some s'.ws := by
  induction e with
  | nil s => rfl
  | @cons s s1 s2 i a tr st ex ih =>
    have ih := ih (good_step (fun H c _ hm => LawfulLocks.good_typed scr env H c hm) h st)
    rw [uses_cons]
    by_cases ha : ∃ f, a = .use f
    · obtain ⟨f, rfl⟩ := ha
      show (f s.ws).state.bind _ = _
      rw [(uses_by_holder h st).2]
      exact ih
    · have hu : useOf i a = [] := by
        cases a with
        | use f => exact (ha ⟨f, rfl⟩).elim
        | _ => rfl
      rw [hu, ← ws_kept st fun f hf => ha ⟨f, hf⟩]
      exact ih

theorem serial [LockEnv ε σ] [LawfulLocks ε σ] {fin : Option (σ → Outcome σ)} {scr : Bool} {env : ε}
    (htc : ∀ c p, Tidy fin p (LockEnv.code env c)) (htu : ∀ f H p, Tidy fin p (LockEnv.unwind env f H))
    {ws : σ} {tr : List (Nat × Label σ)} {s : Sys σ} (e : Exec env (Typed scr) (Sys.init ws) tr s) :
    ∃ ss cur, uses tr = inTurn ss ++ cur ∧ takers tr = ss.map (·.1) ++ (s.mx .writer).owner.toList ∧
      (∀ x ∈ ss, ∀ g, fin = some g → x.2.getLast? = some g) ∧
      (∀ x ∈ cur, (s.mx .writer).owner = some x.1) ∧
      applyUses ((inTurn ss ++ cur).map (·.2)) ws = some s.ws := by
  obtain ⟨ss, cur, h⟩ := sessions_exec htc htu e (good_init _ _ ws) (sessions_init _ ws)
  refine ⟨ss, cur, h.all, by simpa using h.took, h.ended, h.current, ?_⟩
  have h1 : uses tr = inTurn ss ++ cur := h.all
  rw [← h1]
  exact apply_exec e (good_init _ _ ws)

/-! ## Calls -/

theorem calls_exist {α β : Type} {g : β → α} {l : List α} (h : ∀ x ∈ l, ∃ o, x = g o) :
    ∃ ops : List β, l = ops.map g := by
  induction l with
  | nil => exact ⟨[], rfl⟩
  | cons a l ih =>
    obtain ⟨o, rfl⟩ := h a List.mem_cons_self
    obtain ⟨ops, rfl⟩ := ih fun x hx => h x (List.mem_cons_of_mem _ hx)
    exact ⟨o :: ops, rfl⟩

theorem session_calls {env : WEnv} {fs : List (WS → Outcome WS)}
    (h : ∀ f ∈ fs, ∃ o : TOp, f = o.unix.run env) (he : fs.getLast? = some (WOp.sessionEnd.run env)) :
    ∃ ops : List TOp, fs = ops.map (fun o => o.unix.run env) ∧ ops.getLast? = some .release := by
  obtain ⟨l, rfl⟩ := List.getLast?_eq_some_iff.1 he
  obtain ⟨ops, rfl⟩ := calls_exist (g := fun o : TOp => o.unix.run env) fun x hx => h x (List.mem_append_left _ hx)
  exact ⟨ops ++ [.release], by simp [TOp.unix], by simp⟩

theorem sessions_calls {env : WEnv} {ss : List (Nat × List (WS → Outcome WS))}
    (h : ∀ x ∈ ss, ∀ f ∈ x.2, ∃ o : TOp, f = o.unix.run env)
    (he : ∀ x ∈ ss, x.2.getLast? = some (WOp.sessionEnd.run env)) :
    ∃ cs : List (Nat × List TOp), ss = cs.map (fun x => (x.1, x.2.map fun o => o.unix.run env)) ∧
      ∀ x ∈ cs, x.2.getLast? = some .release := by
  induction ss with
  | nil => exact ⟨[], rfl, by simp⟩
  | cons a ss ih =>
    obtain ⟨ops, h1, h2⟩ := session_calls (h a List.mem_cons_self) (he a List.mem_cons_self)
    obtain ⟨cs, h3, h4⟩ := ih (fun x hx => h x (List.mem_cons_of_mem _ hx)) fun x hx => he x (List.mem_cons_of_mem _ hx)
    refine ⟨(a.1, ops) :: cs, by rw [List.map_cons, ← h3, ← h1], ?_⟩
    intro x hx
    rcases List.mem_cons.1 hx with rfl | hx
    · exact h2
    · exact h4 x hx

theorem inTurn_map {α β : Type} (g : α → β) (cs : List (Nat × List α)) :
    inTurn (cs.map fun x => (x.1, x.2.map g)) = (inTurn cs).map fun x => (x.1, g x.2) := by
  induction cs with
  | nil => rfl
  | cons a cs ih =>
    simp only [inTurn, List.map_cons, List.flatMap_cons, List.map_append, List.map_map] at ih ⊢
    rw [ih]
    rfl

theorem apply_trace {env : WEnv} {ops : List TOp} {ws ws' : WS}
    (h : applyUses (ops.map fun o => o.unix.run env) ws = some ws') :
    ∃ res, traceT env ops ws = some (res, ws') := by
  induction ops generalizing ws with
  | nil => exact ⟨[], by cases h; rfl⟩
  | cons o ops ih =>
    simp only [List.map_cons, applyUses] at h
    rw [traceT]
    cases hr : o.unix.run env ws with
    | ok s1 =>
      rw [hr] at h
      obtain ⟨res, e⟩ := ih (ws := s1) h
      exact ⟨(o, true) :: res, by simp only [e, Option.map_some]⟩
    | err x s1 =>
      rw [hr] at h
      obtain ⟨res, e⟩ := ih (ws := s1) h
      exact ⟨(o, false) :: res, by simp only [e, Option.map_some]⟩
    | stop x =>
      rw [hr] at h
      cases h

end Mortal
