import Verif.Spec.Locks

/-! # Lemmas about the locks -/

namespace Mortal
open Spec

/-- The place of a lock in the order. -/
def LockId.rank : LockId → Nat
  | .reader => 0 | .writer => 1 | .data => 2

/-- One lock more. -/
def plus (H : LockId → Bool) (l : LockId) : LockId → Bool := fun i => if i = l then true else H i

/-- One lock less. -/
def minus (H : LockId → Bool) (l : LockId) : LockId → Bool := fun i => if i = l then false else H i

/-- Code that is fine for a thread holding the locks `H`: it releases only what it holds and uses the
writer only with its lock; if `o`, it takes locks in order and does not keep the lock of a screen's
data alone. -/
def Good {σ : Type} (o : Prop) (scr : Bool) : (LockId → Bool) → Code σ → Prop
  | H, .done => o → H .data = true → scr = true ∧ H .writer = true
  | H, .acq l k p => (o → ∀ h, H h = true → h.rank < l.rank) ∧ Good o scr (plus H l) k ∧ Good o scr (plus H l) p
  | H, .tryAcq l y n => (H l = false → Good o scr (plus H l) y) ∧ Good o scr H n
  | H, .rel l k => H l = true ∧ Good o scr (minus H l) k
  | H, .use _ k => H .writer = true ∧ Good o scr H k
  | H, .either a b => Good o scr H a ∧ Good o scr H b
  | _, .panic => True

theorem plus_same (H : LockId → Bool) (l : LockId) : plus H l l = true := if_pos rfl

theorem plus_other {H : LockId → Bool} {l i : LockId} (h : i ≠ l) : plus H l i = H i := if_neg h

theorem minus_same (H : LockId → Bool) (l : LockId) : minus H l l = false := if_pos rfl

theorem minus_other {H : LockId → Bool} {l i : LockId} (h : i ≠ l) : minus H l i = H i := if_neg h

theorem forall_lockId {P : LockId → Prop} : (∀ h, P h) ↔ P .reader ∧ P .writer ∧ P .data :=
  ⟨fun h => ⟨h _, h _, h _⟩, fun ⟨a, b, c⟩ h => by cases h <;> assumption⟩

/-- Code that, whenever it comes to its end, leaves a thread that holds `H` with locks as `F` says. -/
def Leaves {σ : Type} (F : (LockId → Bool) → Prop) : (LockId → Bool) → Code σ → Prop
  | H, .done => F H
  | H, .acq l k p => H l = false → Leaves F (plus H l) k ∧ Leaves F (plus H l) p
  | H, .tryAcq l y n => (H l = false → Leaves F (plus H l) y) ∧ Leaves F H n
  | H, .rel l k => Leaves F (minus H l) k
  | H, .use _ k => Leaves F H k
  | H, .either a b => Leaves F H a ∧ Leaves F H b
  | _, .panic => True

/-- Code that takes no locks. -/
def NoAcq {σ : Type} : Code σ → Prop
  | .done => True
  | .acq _ _ _ => False
  | .tryAcq _ _ _ => False
  | .rel _ k => NoAcq k
  | .use _ k => NoAcq k
  | .either a b => NoAcq a ∧ NoAcq b
  | .panic => True

/-- What is used of the code of an implementation. -/
class LawfulLocks (ε : Type) (σ : outParam Type) [LockEnv ε σ] : Prop where
  good_unwind : ∀ (o : Prop) (scr : Bool) (env : ε) (f : σ → Outcome σ) (H : LockId → Bool),
    Good o scr H (LockEnv.unwind env f H)
  good_typed : ∀ (scr : Bool) (env : ε) (H : LockId → Bool) (c : Call σ), Typed scr H c →
    Good False scr H (LockEnv.code env c)
  leaves_unwind : ∀ (env : ε) (f : σ → Outcome σ) (H : LockId → Bool),
    Leaves (fun H' => ∀ l, H' l = false) H (LockEnv.unwind env f H)
  leaves_code : ∀ (scr : Bool) (env : ε) (H : LockId → Bool) (c : Call σ), Typed scr H c →
    Leaves (HeldAfter c H) H (LockEnv.code env c)
  noAcq_unwind : ∀ (env : ε) (f : σ → Outcome σ) (H : LockId → Bool), NoAcq (LockEnv.unwind env f H)

/-! ## Unix -/

theorem good_unwind (o : Prop) (scr : Bool) (env : WEnv) (f : WS → Outcome WS) (H : LockId → Bool) :
    Good o scr H (unwindCode env f H) := by
  cases h0 : H .reader <;> cases h1 : H .writer <;> cases h2 : H .data <;>
    simp [unwindCode, Code.dropW, Good, minus, h0, h1, h2]

theorem good_code (scr : Bool) (env : WEnv) (H : LockId → Bool) (c : Call WS)
    (hd : H .data = true → scr = true ∧ H .writer = true) (h : Careful scr H c) : Good True scr H (c.code env) := by
  obtain ⟨⟨⟨hs, hn⟩, hr⟩, ht⟩ := h
  cases scr <;>
  cases c <;> simp only [ofScreen, reduceCtorEq, needs, takes, forall_lockId] at hs hn ht hr <;>
    cases h0 : H .reader <;> cases h1 : H .writer <;> cases h2 : H .data <;>
    simp_all [Call.code, Code.lock, Code.dropW, Code.dropS, Code.handle, Code.sread, Good, plus, minus,
      forall_lockId, LockId.rank]

theorem good_typed (scr : Bool) (env : WEnv) (H : LockId → Bool) (c : Call WS) (h : Typed scr H c) :
    Good False scr H (c.code env) := by
  obtain ⟨_, hn⟩ := h
  cases c <;> simp only [needs, forall_lockId] at hn <;>
    cases h0 : H .reader <;> cases h1 : H .writer <;> cases h2 : H .data <;>
    simp_all [Call.code, Code.lock, Code.dropW, Code.dropS, Code.handle, Code.sread, Good, plus, minus]

theorem leaves_unwind (env : WEnv) (f : WS → Outcome WS) (H : LockId → Bool) :
    Leaves (fun H' => ∀ l, H' l = false) H (unwindCode env f H) := by
  cases h0 : H .reader <;> cases h1 : H .writer <;> cases h2 : H .data <;>
    simp [unwindCode, Code.dropW, Leaves, minus, h0, h1, h2, forall_lockId]

theorem leaves_code (scr : Bool) (env : WEnv) (H : LockId → Bool) (c : Call WS) (h : Typed scr H c) :
    Leaves (HeldAfter c H) H (c.code env) := by
  obtain ⟨_, hn⟩ := h
  cases c <;> simp only [needs, forall_lockId] at hn <;>
    cases h0 : H .reader <;> cases h1 : H .writer <;> cases h2 : H .data <;>
    simp_all [Call.code, Code.lock, Code.dropW, Code.dropS, Code.handle, Code.sread, Leaves, plus, minus,
      HeldAfter, handsOut, handsBack, mayHandOut, forall_lockId]

theorem noAcq_unwind (env : WEnv) (f : WS → Outcome WS) (H : LockId → Bool) : NoAcq (unwindCode env f H) := by
  cases h0 : H .reader <;> cases h1 : H .writer <;> cases h2 : H .data <;>
    simp [unwindCode, Code.dropW, NoAcq, h0, h1, h2]

instance : LawfulLocks WEnv WS where
  good_unwind := good_unwind
  good_typed := good_typed
  leaves_unwind := leaves_unwind
  leaves_code := leaves_code
  noAcq_unwind := noAcq_unwind

/-! ## The invariant -/

/-- Every thread's code is fine for the locks it holds. -/
def AllGood {σ : Type} (o : Prop) (scr : Bool) (s : Sys σ) : Prop := ∀ t, Good o scr (s.holds t) (s.thr t).code

theorem holds_goto (s : Sys σ) (t i : Nat) (c : Code σ) : (s.goto t c).holds i = s.holds i := rfl

theorem code_goto (s : Sys σ) (t : Nat) (c : Code σ) : ((s.goto t c).thr t).code = c := by
  simp [Sys.goto]

theorem code_goto_other {s : Sys σ} {t i : Nat} (c : Code σ) (h : i ≠ t) : (s.goto t c).thr i = s.thr i := by
  simp [Sys.goto, h]

theorem holds_take {s : Sys σ} {l : LockId} {p : Bool} (t : Nat) :
    (s.setOwner l (some t) p).holds t = plus (s.holds t) l := by
  funext i
  by_cases hi : i = l <;> simp [Sys.setOwner, Sys.holds, plus, hi]

theorem holds_take_other {s : Sys σ} {l : LockId} {p : Bool} {t i : Nat} (h : i ≠ t)
    (hf : (s.mx l).owner = none) : (s.setOwner l (some t) p).holds i = s.holds i := by
  funext j
  by_cases hj : j = l
  · subst hj
    simp only [Sys.setOwner, Sys.holds, if_true, hf]
    simp
    exact fun e => h e.symm
  · simp [Sys.setOwner, Sys.holds, hj]

theorem holds_drop {s : Sys σ} {l : LockId} {p : Bool} (t : Nat) :
    (s.setOwner l none p).holds t = minus (s.holds t) l := by
  funext i
  by_cases hi : i = l <;> simp [Sys.setOwner, Sys.holds, minus, hi]

theorem holds_drop_other {s : Sys σ} {l : LockId} {p : Bool} {t i : Nat} (h : i ≠ t)
    (hf : s.holds t l = true) : (s.setOwner l none p).holds i = s.holds i := by
  funext j
  have hf := of_decide_eq_true hf
  by_cases hj : j = l
  · subst hj
    simp only [Sys.setOwner, Sys.holds, if_true, hf]
    simp
    exact fun e => h e.symm
  · simp [Sys.setOwner, Sys.holds, hj]

theorem good_goto {o : Prop} {scr : Bool} {s s1 : Sys σ} {t : Nat} {c : Code σ} (h : AllGood o scr s)
    (hthr : s1.thr = s.thr) (hh : ∀ i, i ≠ t → s1.holds i = s.holds i)
    (hc : Good o scr (s1.holds t) c) : AllGood o scr (s1.goto t c) := by
  intro i
  by_cases hi : i = t
  · subst hi; rw [code_goto]; exact hc
  · rw [code_goto_other c hi, holds_goto, hh i hi, hthr]; exact h i

theorem good_step {o : Prop} [LockEnv ε σ] [LawfulLocks ε σ] {scr : Bool} {env : ε} {may : (LockId → Bool) → Call σ → Prop} {t : Nat} {s s' : Sys σ}
    {a : Label σ} (hmay : ∀ H c, Good o scr H (.done : Code σ) → may H c → Good o scr H (LockEnv.code env c))
    (h : AllGood o scr s) (st : LStep env may t s a s') : AllGood o scr s' := by
  have ht := h t
  cases st with
  | call e hm =>
    refine good_goto h rfl (fun _ _ => rfl) (hmay _ _ ?_ hm)
    rw [e] at ht; exact ht
  | acq e hf =>
    rw [e] at ht
    refine good_goto h rfl (fun i hi => holds_take_other hi hf) ?_
    rw [holds_take]
    split
    · exact ht.2.2
    · exact ht.2.1
  | tryYes e hf =>
    rw [e] at ht
    refine good_goto h rfl (fun i hi => holds_take_other hi hf) ?_
    rw [holds_take]
    refine ht.1 ?_
    simp [Sys.holds, hf]
  | tryNo e hf =>
    rw [e] at ht
    exact good_goto h rfl (fun _ _ => rfl) ht.2
  | rel e =>
    rw [e] at ht
    refine good_goto h rfl (fun i hi => holds_drop_other hi ht.1) ?_
    rw [holds_drop]; exact ht.2
  | use e hw =>
    rw [e] at ht
    exact good_goto (s1 := s) h rfl (fun _ _ => rfl) ht.2
  | left e =>
    rw [e] at ht
    exact good_goto h rfl (fun _ _ => rfl) ht.1
  | right e =>
    rw [e] at ht
    exact good_goto h rfl (fun _ _ => rfl) ht.2
  | @crash f e =>
    intro i
    by_cases hi : i = t
    · subst hi
      have : ((s.unwind i (LockEnv.unwind env f (s.holds i))).thr i).code = LockEnv.unwind env f (s.holds i) := by
        simp [Sys.unwind]
      rw [this]
      exact LawfulLocks.good_unwind o scr env f _
    · have : (s.unwind t (LockEnv.unwind env f (s.holds t))).thr i = s.thr i := by
        simp [Sys.unwind, hi]
      rw [this]
      exact h i

theorem good_exec {o : Prop} [LockEnv ε σ] [LawfulLocks ε σ] {scr : Bool} {env : ε} {may : (LockId → Bool) → Call σ → Prop}
    (hmay : ∀ H c, Good o scr H (.done : Code σ) → may H c → Good o scr H (LockEnv.code env c)) {s s' : Sys σ}
    {tr : List (Nat × Label σ)} (e : Exec env may s tr s') (h : AllGood o scr s) : AllGood o scr s' := by
  induction e with
  | nil s => exact h
  | cons st _ ih => exact ih (good_step hmay h st)

theorem good_init (o : Prop) (scr : Bool) (ws : σ) : AllGood o scr (Sys.init ws) := by
  intro t _ h
  simp [Sys.init, Sys.holds] at h

theorem good_careful {scr : Bool} {env : WEnv} {ws : WS} {s : Sys WS} {tr : List (Nat × Label WS)}
    (e : Exec env (Careful scr) (Sys.init ws) tr s) : AllGood True scr s :=
  good_exec (fun H c hd hm => good_code scr env H c (hd trivial) hm) e (good_init _ _ ws)

theorem waits_rank {scr : Bool} {s : Sys σ} (h : AllGood True scr s) {t : Nat} {l l' : LockId} (hw : Waits s t l)
    (hh : (s.mx l').owner = some t) : l'.rank < l.rank := by
  obtain ⟨k, p, e⟩ := hw
  have ht := h t
  rw [e] at ht
  exact ht.1 trivial l' (decide_eq_true hh)

theorem rank_le (l : LockId) : l.rank ≤ 2 := by cases l <;> decide

/-- Nobody waits for a thread that waits for a thread that waits for a thread that waits. -/
theorem no_long_wait {scr : Bool} {s : Sys σ} (h : AllGood True scr s) {a b c d e : Nat}
    (h1 : WaitsFor s a b) (h2 : WaitsFor s b c) (h3 : WaitsFor s c d) (h4 : WaitsFor s d e) : False := by
  obtain ⟨l1, w1, o1⟩ := h1
  obtain ⟨l2, w2, o2⟩ := h2
  obtain ⟨l3, w3, o3⟩ := h3
  obtain ⟨l4, w4, o4⟩ := h4
  have r1 := waits_rank h w2 o1
  have r2 := waits_rank h w3 o2
  have r3 := waits_rank h w4 o3
  have := rank_le l4
  omega

theorem no_deadlock {scr : Bool} {s : Sys σ} (hg : AllGood True scr s) (T : Nat → Prop) : ¬ Deadlock s T := by
  rintro ⟨⟨a, ha⟩, hT⟩
  obtain ⟨b, hb, h1⟩ := hT a ha
  obtain ⟨c, hc, h2⟩ := hT b hb
  obtain ⟨d, hd, h3⟩ := hT c hc
  obtain ⟨x, _, h4⟩ := hT d hd
  exact no_long_wait hg h1 h2 h3 h4

theorem progress {scr : Bool} {s : Sys σ} (hg : AllGood True scr s) (t t' : Nat) (h : WaitsFor s t t') :
    ∃ t'', WaitChain s t t'' ∧ (∃ l, (s.mx l).owner = some t'') ∧ ∀ u, ¬ WaitsFor s t'' u := by
  by_cases h1 : ∃ u, WaitsFor s t' u
  · obtain ⟨u, h1⟩ := h1
    by_cases h2 : ∃ v, WaitsFor s u v
    · obtain ⟨v, h2⟩ := h2
      obtain ⟨l, w, o⟩ := h2
      exact ⟨v, .more h (.more h1 (.one ⟨l, w, o⟩)), ⟨l, o⟩, fun x hx =>
        no_long_wait hg h h1 ⟨l, w, o⟩ hx⟩
    · obtain ⟨l, w, o⟩ := h1
      exact ⟨u, .more h (.one ⟨l, w, o⟩), ⟨l, o⟩, fun x hx => h2 ⟨x, hx⟩⟩
  · obtain ⟨l, w, o⟩ := h
    exact ⟨t', .one ⟨l, w, o⟩, ⟨l, o⟩, fun x hx => h1 ⟨x, hx⟩⟩

/-! ## Who uses the writer -/

theorem uses_by_holder {o : Prop} [LockEnv ε σ] [LawfulLocks ε σ] {scr : Bool} {env : ε} {may : (LockId → Bool) → Call σ → Prop}
    {s s' : Sys σ} {i : Nat} {f : σ → Outcome σ} (h : AllGood o scr s)
    (st : LStep env may i s (.use f) s') : (s.mx .writer).owner = some i ∧ (f s.ws).state = some s'.ws := by
  cases st with
  | use e hw =>
    have hi := h i
    rw [e] at hi
    exact ⟨of_decide_eq_true hi.1, hw⟩

theorem ws_kept [LockEnv ε σ] {env : ε} {may : (LockId → Bool) → Call σ → Prop} {s s' : Sys σ} {i : Nat} {a : Label σ}
    (st : LStep env may i s a s') (ha : ∀ f, a ≠ .use f) : s'.ws = s.ws := by
  cases st with
  | use e hw => exact (ha _ rfl).elim
  | _ => rfl

theorem owner_kept {o : Prop} [LockEnv ε σ] [LawfulLocks ε σ] {scr : Bool} {env : ε} {may : (LockId → Bool) → Call σ → Prop} {s s' : Sys σ}
    {i t : Nat} {a : Label σ} {l : LockId} (h : AllGood o scr s) (st : LStep env may i s a s')
    (ho : (s.mx l).owner = some t) (ha : (i, a) ≠ (t, .rel l)) : (s'.mx l).owner = some t := by
  cases st with
  | call e hm => exact ho
  | @acq l' _ _ e hf =>
    by_cases hl : l = l'
    · subst hl; rw [hf] at ho; cases ho
    · simp [Sys.goto, Sys.setOwner, hl, ho]
  | @tryYes l' _ _ e hf =>
    by_cases hl : l = l'
    · subst hl; rw [hf] at ho; cases ho
    · simp [Sys.goto, Sys.setOwner, hl, ho]
  | tryNo e hf => exact ho
  | @rel l' _ e =>
    by_cases hl : l = l'
    · subst hl
      have hi := h i
      rw [e] at hi
      have h2 := of_decide_eq_true hi.1
      rw [ho] at h2
      cases h2
      exact (ha rfl).elim
    · simp [Sys.goto, Sys.setOwner, hl, ho]
  | use e hw => exact ho
  | left e => exact ho
  | right e => exact ho
  | crash e => exact ho

theorem good_typed_exec [LockEnv ε σ] [LawfulLocks ε σ] {scr : Bool} {env : ε} {s s' : Sys σ} {tr : List (Nat × Label σ)}
    (e : Exec env (Typed scr) s tr s') (h : AllGood False scr s) : AllGood False scr s' :=
  good_exec (fun H c _ hm => LawfulLocks.good_typed scr env H c hm) e h

theorem uses_session [LockEnv ε σ] [LawfulLocks ε σ] {scr : Bool} {env : ε} {t : Nat} {s s' : Sys σ} {tr : List (Nat × Label σ)}
    (e : Exec env (Typed scr) s tr s') (h : AllGood False scr s)
    (ho : (s.mx .writer).owner = some t) (hr : (t, .rel .writer) ∉ tr) :
    (s'.mx .writer).owner = some t ∧ (∀ x ∈ uses tr, x.1 = t) ∧
    applyUses ((uses tr).map (·.2)) s.ws = some s'.ws := by
  induction e with
  | nil s => exact ⟨ho, by simp [uses], rfl⟩
  | @cons s s1 s2 i a tr st ex ih =>
    have h1 := good_step (fun H c _ hm => LawfulLocks.good_typed scr env H c hm) h st
    have ho1 := owner_kept h st ho (fun eq => hr (eq ▸ List.mem_cons_self))
    obtain ⟨k1, k2, k3⟩ := ih h1 ho1 fun hm => hr (List.mem_cons_of_mem _ hm)
    refine ⟨k1, ?_⟩
    by_cases ha : ∃ f, a = .use f
    · obtain ⟨f, rfl⟩ := ha
      obtain ⟨g1, g2⟩ := uses_by_holder h st
      rw [ho] at g1
      cases g1
      refine ⟨?_, ?_⟩
      · intro x hx
        rcases List.mem_cons.1 hx with rfl | hx
        · rfl
        · exact k2 x hx
      · show (f s.ws).state.bind _ = _
        rw [g2]
        exact k3
    · have hu : uses ((i, a) :: tr) = uses tr := by
        cases a with
        | use f => exact (ha ⟨f, rfl⟩).elim
        | _ => rfl
      rw [hu]
      refine ⟨k2, ?_⟩
      rw [← ws_kept st fun f hf => ha ⟨f, hf⟩]
      exact k3

end Mortal
