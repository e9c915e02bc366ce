import Verif.Lemmas.Locks

/-! # What a thread holds when a call has returned -/

namespace Mortal
open Spec

/-- The steps of a thread that is in a call. -/
theorem leaves_step {F : (LockId → Bool) → Prop} [LockEnv ε σ] [LawfulLocks ε σ] {scr : Bool} {env : ε} {t i : Nat} {s s' : Sys σ} {a : Label σ}
    (st : LStep env (Typed scr) i s a s') (ha : ∀ c, (t, a) ≠ (t, .call c) ∨ i ≠ t) (hg : AllGood False scr s)
    (h : (s.thr t).panicking = false → Leaves F (s.holds t) (s.thr t).code)
    (hp : (s.thr t).panicking = true → Leaves (fun H => ∀ l, H l = false) (s.holds t) (s.thr t).code) :
    ((s'.thr t).panicking = false → Leaves F (s'.holds t) (s'.thr t).code) ∧
    ((s'.thr t).panicking = true → Leaves (fun H => ∀ l, H l = false) (s'.holds t) (s'.thr t).code) := by
  have key : ∀ {s1 : Sys σ} {c : Code σ}, s1.thr = s.thr → (i ≠ t → s1.holds t = s.holds t) →
      (∀ G, Leaves G (s.holds i) (s.thr i).code → Leaves G (s1.holds i) c) →
      (((s1.goto i c).thr t).panicking = false → Leaves F ((s1.goto i c).holds t) ((s1.goto i c).thr t).code) ∧
      (((s1.goto i c).thr t).panicking = true →
        Leaves (fun H => ∀ l, H l = false) ((s1.goto i c).holds t) ((s1.goto i c).thr t).code) := by
    intro s1 c e1 e2 e3
    by_cases hi : t = i
    · subst hi
      rw [code_goto, holds_goto]
      have : ((s1.goto t c).thr t).panicking = (s.thr t).panicking := by simp [Sys.goto, e1]
      rw [this]
      exact ⟨fun x => e3 _ (h x), fun x => e3 _ (hp x)⟩
    · rw [code_goto_other c hi, holds_goto, e1, e2 (fun x => hi x.symm)]
      exact ⟨h, hp⟩
  cases st with
  | @call c e hm =>
    by_cases hi : i = t
    · subst hi
      rcases ha c with x | x
      · exact absurd rfl x
      · exact absurd rfl x
    · have ht : t ≠ i := fun x => hi x.symm
      rw [code_goto_other _ ht, holds_goto]
      exact ⟨h, hp⟩
  | @acq l k p e hf =>
    refine key rfl (fun hi => holds_take_other (fun x => hi x.symm) hf) fun G hG => ?_
    rw [e] at hG
    have hl : s.holds i l = false := by simp only [Sys.holds, hf]; rfl
    rw [holds_take]
    split
    · exact (hG hl).2
    · exact (hG hl).1
  | tryYes e hf =>
    refine key rfl (fun hi => holds_take_other (fun x => hi x.symm) hf) fun G hG => ?_
    rw [e] at hG
    rw [holds_take]
    exact hG.1 (by simp only [Sys.holds, hf]; rfl)
  | tryNo e hf =>
    refine key rfl (fun _ => rfl) fun G hG => ?_
    rw [e] at hG
    exact hG.2
  | rel e =>
    have hi := hg i
    rw [e] at hi
    refine key rfl (fun x => holds_drop_other (fun y => x y.symm) hi.1) fun G hG => ?_
    rw [e] at hG
    rw [holds_drop]
    exact hG
  | @use f k w e hw =>
    have := @key s k rfl (fun _ => rfl) fun G hG => (by rw [e] at hG; exact hG)
    exact this
  | left e =>
    refine key rfl (fun _ => rfl) fun G hG => ?_
    rw [e] at hG
    exact hG.1
  | right e =>
    refine key rfl (fun _ => rfl) fun G hG => ?_
    rw [e] at hG
    exact hG.2
  | @crash f e =>
    by_cases hi : t = i
    · subst hi
      have e1 : (s.unwind t (LockEnv.unwind env f (s.holds t))).thr t = ⟨LockEnv.unwind env f (s.holds t), true⟩ := by
        simp [Sys.unwind]
      rw [e1]
      exact ⟨fun x => (by cases x), fun _ => LawfulLocks.leaves_unwind env f _⟩
    · have e1 : (s.unwind i (LockEnv.unwind env f (s.holds i))).thr t = s.thr t := by
        simp [Sys.unwind, hi]
      rw [e1]
      exact ⟨h, hp⟩

theorem leaves_exec {F : (LockId → Bool) → Prop} [LockEnv ε σ] [LawfulLocks ε σ] {scr : Bool} {env : ε} {t : Nat} {s s' : Sys σ}
    {tr : List (Nat × Label σ)} (e : Exec env (Typed scr) s tr s') (hn : NoCall t tr) (hg : AllGood False scr s)
    (h : (s.thr t).panicking = false → Leaves F (s.holds t) (s.thr t).code)
    (hp : (s.thr t).panicking = true → Leaves (fun H => ∀ l, H l = false) (s.holds t) (s.thr t).code) :
    ((s'.thr t).panicking = false → Leaves F (s'.holds t) (s'.thr t).code) ∧
    ((s'.thr t).panicking = true → Leaves (fun H => ∀ l, H l = false) (s'.holds t) (s'.thr t).code) := by
  induction e with
  | nil s => exact ⟨h, hp⟩
  | @cons s s1 s2 i a tr st e1 ih =>
    have h1 := leaves_step (t := t) st (fun c => by
      by_cases hi : i = t
      · left
        intro x
        simp only [Prod.mk.injEq, true_and] at x
        exact hn c (by rw [x, hi]; exact List.mem_cons_self)
      · exact Or.inr hi) hg h hp
    exact ih (fun c hc => hn c (List.mem_cons_of_mem _ hc))
      (good_step (fun H c _ hm => LawfulLocks.good_typed scr env H c hm) hg st) h1.1 h1.2

/-- Whatever a thread does, once it panics it comes to hold nothing. -/
theorem leaves_panic [LockEnv ε σ] [LawfulLocks ε σ] {scr : Bool} {env : ε} {t : Nat} {s s' : Sys σ} {tr : List (Nat × Label σ)}
    (e : Exec env (Typed scr) s tr s') (hg : AllGood False scr s)
    (hp : (s.thr t).panicking = true → Leaves (fun H => ∀ l, H l = false) (s.holds t) (s.thr t).code) :
    (s'.thr t).panicking = true → Leaves (fun H => ∀ l, H l = false) (s'.holds t) (s'.thr t).code := by
  induction e with
  | nil s => exact hp
  | @cons s s1 s2 i a tr st e1 ih =>
    have hg1 := good_step (fun H c _ hm => LawfulLocks.good_typed scr env H c hm) hg st
    refine ih hg1 ?_
    by_cases hc : ∃ c, a = .call c ∧ i = t
    · obtain ⟨c, rfl, rfl⟩ := hc
      cases st with
      | call e _ =>
        intro x
        simp [Sys.goto, e] at x
    · refine (leaves_step (F := fun _ => True) (t := t) st (fun c => ?_) hg (fun _ => ?_) hp).2
      · by_cases hi : i = t
        · left
          intro x
          simp only [Prod.mk.injEq, true_and] at x
          exact hc ⟨c, x, hi⟩
        · exact Or.inr hi
      · generalize s.holds t = H
        generalize (s.thr t).code = c
        clear hp ih hg hg1 e1 st hc
        induction c generalizing H with
        | done => trivial
        | acq l k p ih1 ih2 => exact fun _ => ⟨ih1 _, ih2 _⟩
        | tryAcq l k p ih1 ih2 => exact ⟨fun _ => ih1 _, ih2 _⟩
        | rel l k ih1 => exact ih1 _
        | use f k ih1 => exact ih1 _
        | either a b ih1 ih2 => exact ⟨ih1 _, ih2 _⟩
        | panic => trivial

theorem guards_after [LockEnv ε σ] [LawfulLocks ε σ] (scr : Bool) (env : ε) (ws : σ)
    (tr tr' : List (Nat × Label σ)) (s0 s1 s2 : Sys σ) (t : Nat)
    (c : Call σ) (e0 : Exec env (Typed scr) (Sys.init ws) tr s0) (ec : LStep env (Typed scr) t s0 (.call c) s1)
    (e1 : Exec env (Typed scr) s1 tr' s2) (hn : NoCall t tr') (hd : (s2.thr t).code = .done) :
    if (s2.thr t).panicking then ∀ l, s2.holds t l = false else HeldAfter c (s0.holds t) (s2.holds t) := by
  have hg := good_typed_exec e0 (good_init _ _ ws)
  have hg1 := good_step (fun H c _ hm => LawfulLocks.good_typed scr env H c hm) hg ec
  cases ec with
  | call e hm =>
    have h := leaves_exec (F := HeldAfter c (s0.holds t)) e1 hn hg1
      (fun _ => by rw [code_goto, holds_goto]; exact LawfulLocks.leaves_code scr env _ c hm)
      (fun x => by simp [Sys.goto, e] at x)
    rw [hd] at h
    cases hp : (s2.thr t).panicking with
    | false => exact h.1 hp
    | true => exact h.2 hp

theorem dead_holds_nothing [LockEnv ε σ] [LawfulLocks ε σ] (scr : Bool) (env : ε) (ws : σ)
    (tr : List (Nat × Label σ)) (s : Sys σ) (t : Nat)
    (e : Exec env (Typed scr) (Sys.init ws) tr s) (hd : (s.thr t).code = .done)
    (hp : (s.thr t).panicking = true) (l : LockId) : s.holds t l = false := by
  have h := leaves_panic (t := t) e (good_init _ _ ws) (fun x => by simp [Sys.init] at x) hp
  rw [hd] at h
  exact h l

end Mortal
