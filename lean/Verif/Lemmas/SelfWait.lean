import Verif.Lemmas.WinLocks

/-! # Lemmas about threads that wait for their own locks -/

namespace Mortal
open Spec

/-- Code that is fine for a thread holding the locks `H` up to the point at which it waits for a lock
it holds itself: locks are released only if held, they are taken in order, and the lock of a screen's
data is not kept alone. -/
def Orderly {σ : Type} (scr : Bool) : (LockId → Bool) → Code σ → Prop
  | H, .done => H .data = true → scr = true ∧ H .writer = true
  | H, .acq l k p => H l = true ∨
      ((∀ h, H h = true → h.rank < l.rank) ∧ Orderly scr (plus H l) k ∧ Orderly scr (plus H l) p)
  | H, .tryAcq l y n => (H l = false → Orderly scr (plus H l) y) ∧ Orderly scr H n
  | H, .rel l k => H l = true ∧ Orderly scr (minus H l) k
  | H, .use _ k => Orderly scr H k
  | H, .either a b => Orderly scr H a ∧ Orderly scr H b
  | _, .panic => True

/-- What is used of an implementation. -/
class OrderlyLocks (ε : Type) (σ : outParam Type) [LockEnv ε σ] : Prop where
  unwind : ∀ (scr : Bool) (env : ε) (f : σ → Outcome σ) (H : LockId → Bool),
    Orderly scr H (LockEnv.unwind env f H)
  code : ∀ (scr : Bool) (env : ε) (H : LockId → Bool) (c : Call σ),
    (H .data = true → scr = true ∧ H .writer = true) → ReadFirst scr H c → Orderly scr H (LockEnv.code env c)

theorem orderly_unwind (scr : Bool) (env : WEnv) (f : WS → Outcome WS) (H : LockId → Bool) :
    Orderly scr H (unwindCode env f H) := by
  cases h0 : H .reader <;> cases h1 : H .writer <;> cases h2 : H .data <;>
    simp [unwindCode, Code.dropW, Orderly, minus, h0, h1, h2]

theorem orderly_code (scr : Bool) (env : WEnv) (H : LockId → Bool) (c : Call WS)
    (hd : H .data = true → scr = true ∧ H .writer = true) (h : ReadFirst scr H c) :
    Orderly scr H (c.code env) := by
  obtain ⟨⟨hs, hn⟩, hr⟩ := h
  cases scr <;>
  cases c <;> simp only [ofScreen, reduceCtorEq, needs, takes, forall_lockId] at hs hn hr <;>
    cases h0 : H .reader <;> cases h1 : H .writer <;> cases h2 : H .data <;>
    simp_all [Call.code, Code.lock, Code.dropW, Code.dropS, Code.handle, Code.sread, Orderly, plus, minus,
      forall_lockId, LockId.rank]

instance : OrderlyLocks WEnv WS := ⟨orderly_unwind, orderly_code⟩

theorem winOrderly_unwind {σ : Type} (scr : Bool) (f : σ → Outcome σ) (H : LockId → Bool) :
    Orderly scr H (winUnwindCode f H) := by
  cases h0 : H .reader <;> cases h1 : H .writer <;> cases h2 : H .data <;>
    simp [winUnwindCode, Code.winDropW, Orderly, minus, h0, h1, h2]

theorem winOrderly_code {σ : Type} (scr : Bool) (H : LockId → Bool) (c : Call σ)
    (hd : H .data = true → scr = true ∧ H .writer = true) (h : ReadFirst scr H c) :
    Orderly scr H c.winCode := by
  obtain ⟨⟨hs, hn⟩, hr⟩ := h
  cases scr <;>
  cases c <;> simp only [ofScreen, reduceCtorEq, needs, takes, forall_lockId] at hs hn hr <;>
    cases h0 : H .reader <;> cases h1 : H .writer <;> cases h2 : H .data <;>
    simp_all [Call.winCode, Code.lock, Code.winDropW, Code.winDropS, Code.winSread, Orderly, plus, minus,
      forall_lockId, LockId.rank]

instance : OrderlyLocks WTerm WinSt :=
  ⟨fun scr _ f H => winOrderly_unwind scr f H, fun scr _ H c hd h => winOrderly_code scr H c hd h⟩

/-- Every thread's code is fine, up to a wait for its own lock. -/
def AllOrderly {σ : Type} (scr : Bool) (s : Sys σ) : Prop := ∀ t, Orderly scr (s.holds t) (s.thr t).code

variable {ε σ : Type}

theorem orderly_goto {scr : Bool} {s s1 : Sys σ} {t : Nat} {c : Code σ} (h : AllOrderly scr s)
    (hthr : s1.thr = s.thr) (hh : ∀ i, i ≠ t → s1.holds i = s.holds i)
    (hc : Orderly scr (s1.holds t) c) : AllOrderly scr (s1.goto t c) := by
  intro i
  by_cases hi : i = t
  · subst hi; rw [code_goto]; exact hc
  · rw [code_goto_other c hi, holds_goto, hh i hi, hthr]; exact h i

theorem orderly_step [LockEnv ε σ] [OrderlyLocks ε σ] {scr : Bool} {env : ε} {t : Nat} {s s' : Sys σ}
    {a : Label σ} (h : AllOrderly scr s) (st : LStep env (ReadFirst scr) t s a s') : AllOrderly scr s' := by
  have ht := h t
  cases st with
  | call e hm =>
    refine orderly_goto h rfl (fun _ _ => rfl) (OrderlyLocks.code _ _ _ _ ?_ hm)
    rw [e] at ht; exact ht
  | acq e hf =>
    rw [e] at ht
    refine orderly_goto h rfl (fun i hi => holds_take_other hi hf) ?_
    rw [holds_take]
    rcases ht with ht | ht
    · have := of_decide_eq_true ht
      rw [hf] at this; cases this
    · split
      · exact ht.2.2
      · exact ht.2.1
  | tryYes e hf =>
    rw [e] at ht
    refine orderly_goto h rfl (fun i hi => holds_take_other hi hf) ?_
    rw [holds_take]
    refine ht.1 ?_
    simp [Sys.holds, hf]
  | tryNo e hf =>
    rw [e] at ht
    exact orderly_goto h rfl (fun _ _ => rfl) ht.2
  | rel e =>
    rw [e] at ht
    refine orderly_goto h rfl (fun i hi => holds_drop_other hi ht.1) ?_
    rw [holds_drop]; exact ht.2
  | use e hw =>
    rw [e] at ht
    exact orderly_goto (s1 := s) h rfl (fun _ _ => rfl) ht
  | left e =>
    rw [e] at ht
    exact orderly_goto h rfl (fun _ _ => rfl) ht.1
  | right e =>
    rw [e] at ht
    exact orderly_goto h rfl (fun _ _ => rfl) ht.2
  | @crash f e =>
    intro i
    by_cases hi : i = t
    · subst hi
      have : ((s.unwind i (LockEnv.unwind env f (s.holds i))).thr i).code = LockEnv.unwind env f (s.holds i) := by
        simp [Sys.unwind]
      rw [this]
      exact OrderlyLocks.unwind scr env f _
    · have : (s.unwind t (LockEnv.unwind env f (s.holds t))).thr i = s.thr i := by
        simp [Sys.unwind, hi]
      rw [this]
      exact h i

theorem orderly_exec [LockEnv ε σ] [OrderlyLocks ε σ] {scr : Bool} {env : ε} {s s' : Sys σ}
    {tr : List (Nat × Label σ)} (e : Exec env (ReadFirst scr) s tr s') (h : AllOrderly scr s) :
    AllOrderly scr s' := by
  induction e with
  | nil s => exact h
  | cons st _ ih => exact ih (orderly_step h st)

theorem orderly_init (scr : Bool) (ws : σ) : AllOrderly scr (Sys.init ws) := by
  intro t h
  simp [Sys.init, Sys.holds] at h

/-- A thread that does not wait for itself takes locks in order. -/
theorem orderly_rank {scr : Bool} {s : Sys σ} (h : AllOrderly scr s) {t : Nat} (hn : ¬ WaitsFor s t t)
    {l l' : LockId} (hw : Waits s t l) (hh : (s.mx l').owner = some t) : l'.rank < l.rank := by
  obtain ⟨k, p, e⟩ := hw
  have ht := h t
  rw [e] at ht
  rcases ht with ht | ht
  · exact absurd ⟨l, ⟨k, p, e⟩, of_decide_eq_true ht⟩ hn
  · exact ht.1 l' (decide_eq_true hh)

theorem deadlock_self {scr : Bool} {s : Sys σ} (hg : AllOrderly scr s) {T : Nat → Prop}
    (h : Deadlock s T) : ∃ t, T t ∧ WaitsFor s t t := by
  apply Classical.byContradiction
  intro hno
  have hn : ∀ t, T t → ¬ WaitsFor s t t := fun t ht hw => hno ⟨t, ht, hw⟩
  obtain ⟨⟨a, ha⟩, hT⟩ := h
  obtain ⟨b, hb, l1, w1, o1⟩ := hT a ha
  obtain ⟨c, hc, l2, w2, o2⟩ := hT b hb
  obtain ⟨d, hd, l3, w3, o3⟩ := hT c hc
  obtain ⟨x, _, l4, w4, o4⟩ := hT d hd
  have r1 := orderly_rank hg (hn b hb) w2 o1
  have r2 := orderly_rank hg (hn c hc) w3 o2
  have r3 := orderly_rank hg (hn d hd) w4 o3
  have := rank_le l4
  omega

/-- A thread that waits for a lock somebody holds takes no step, other than to panic. -/
theorem waits_stuck [LockEnv ε σ] {env : ε} {may : (LockId → Bool) → Call σ → Prop} {s s' : Sys σ}
    {t t' : Nat} {a : Label σ} (h : WaitsFor s t t') (st : LStep env may t s a s') : a = .crash := by
  obtain ⟨l, ⟨k, p, e⟩, o⟩ := h
  cases st with
  | call e' hm => rw [e'] at e; cases e
  | acq e' hf => rw [e] at e'; cases e'; rw [hf] at o; cases o
  | tryYes e' hf => rw [e] at e'; cases e'
  | tryNo e' hf => rw [e] at e'; cases e'
  | rel e' => rw [e] at e'; cases e'
  | use e' hw => rw [e] at e'; cases e'
  | left e' => rw [e] at e'; cases e'
  | right e' => rw [e] at e'; cases e'
  | crash e' => rfl

/-- The step of another thread does not change what a thread does. -/
theorem other_thread [LockEnv ε σ] {env : ε} {may : (LockId → Bool) → Call σ → Prop} {s s' : Sys σ}
    {i t : Nat} {a : Label σ} (st : LStep env may i s a s') (h : t ≠ i) : s'.thr t = s.thr t := by
  cases st <;> simp [Sys.goto, Sys.setOwner, Sys.unwind, h]

theorem deadlock_step [LockEnv ε σ] [LawfulLocks ε σ] {scr : Bool} {env : ε}
    {may : (LockId → Bool) → Call σ → Prop} {s s' : Sys σ} {i : Nat} {a : Label σ} {T : Nat → Prop}
    (hg : AllGood False scr s) (hd : Deadlock s T) (hc : T i → a ≠ .crash)
    (st : LStep env may i s a s') : ¬ T i ∧ Deadlock s' T := by
  have hi : ¬ T i := fun h => by
    obtain ⟨j, -, hw⟩ := hd.2 i h
    exact hc h (waits_stuck hw st)
  refine ⟨hi, hd.1, fun t ht => ?_⟩
  obtain ⟨j, hj, l, ⟨k, p, e⟩, o⟩ := hd.2 t ht
  have hne : ∀ {t}, T t → t ≠ i := fun h e => hi (e ▸ h)
  refine ⟨j, hj, l, ⟨k, p, ?_⟩, owner_kept hg st o fun eq => hne hj (congrArg Prod.fst eq).symm⟩
  rw [other_thread st (hne ht)]
  exact e

theorem deadlock_stays [LockEnv ε σ] [LawfulLocks ε σ] {scr : Bool} {env : ε} {s s' : Sys σ}
    {tr : List (Nat × Label σ)} (ex : Exec env (Typed scr) s tr s') {T : Nat → Prop}
    (hg : AllGood False scr s) (hd : Deadlock s T) (hc : ∀ t, T t → (t, .crash) ∉ tr) :
    (∀ x ∈ tr, ¬ T x.1) ∧ Deadlock s' T := by
  induction ex with
  | nil s => exact ⟨(fun _ h => nomatch h), hd⟩
  | @cons s s1 s2 i a tr st ex ih =>
    obtain ⟨h1, h2⟩ := deadlock_step hg hd
      (fun h e => hc i h (e ▸ List.mem_cons_self)) st
    obtain ⟨h3, h4⟩ := ih (good_step (fun H c _ hm => LawfulLocks.good_typed scr env H c hm) hg st) h2
      fun t ht hm => hc t ht (List.mem_cons_of_mem _ hm)
    refine ⟨fun x hx => ?_, h4⟩
    rcases List.mem_cons.1 hx with rfl | hx
    · exact h1
    · exact h3 x hx

end Mortal
