import Verif.Lemmas.LocksHeld
import Verif.Lemmas.Unwind
import Verif.Lemmas.Serial
import Verif.Model.WinLocks

/-! # Lemmas about the locks on Windows -/

namespace Mortal
open Spec

theorem winGood_unwind {σ : Type} (o : Prop) (scr : Bool) (f : σ → Outcome σ) (H : LockId → Bool) :
    Good o scr H (winUnwindCode f H) := by
  cases h0 : H .reader <;> cases h1 : H .writer <;> cases h2 : H .data <;>
    simp [winUnwindCode, Code.winDropW, Good, minus, h0, h1, h2]

theorem winGood_code {σ : Type} (scr : Bool) (H : LockId → Bool) (c : Call σ)
    (hd : H .data = true → scr = true ∧ H .writer = true) (h : CarefulWin scr H c) : Good True scr H c.winCode := by
  obtain ⟨⟨⟨hs, hn⟩, hr⟩, ht⟩ := h
  cases scr <;>
  cases c <;> simp only [ofScreen, reduceCtorEq, needs, takesWin, forall_lockId] at hs hn ht hr <;>
    cases h0 : H .reader <;> cases h1 : H .writer <;> cases h2 : H .data <;>
    simp_all [Call.winCode, Code.lock, Code.winDropW, Code.winDropS, Code.winSread, Good, plus, minus,
      forall_lockId, LockId.rank]

theorem winGood_typed {σ : Type} (scr : Bool) (H : LockId → Bool) (c : Call σ) (h : Typed scr H c) :
    Good False scr H c.winCode := by
  obtain ⟨_, hn⟩ := h
  cases c <;> simp only [needs, forall_lockId] at hn <;>
    cases h0 : H .reader <;> cases h1 : H .writer <;> cases h2 : H .data <;>
    simp_all [Call.winCode, Code.lock, Code.winDropW, Code.winDropS, Code.winSread, Good, plus, minus]

theorem winLeaves_unwind {σ : Type} (f : σ → Outcome σ) (H : LockId → Bool) :
    Leaves (fun H' => ∀ l, H' l = false) H (winUnwindCode f H) := by
  cases h0 : H .reader <;> cases h1 : H .writer <;> cases h2 : H .data <;>
    simp [winUnwindCode, Code.winDropW, Leaves, minus, h0, h1, h2, forall_lockId]

theorem winLeaves_code {σ : Type} (scr : Bool) (H : LockId → Bool) (c : Call σ) (h : Typed scr H c) :
    Leaves (HeldAfter c H) H c.winCode := by
  obtain ⟨_, hn⟩ := h
  cases c <;> simp only [needs, forall_lockId] at hn <;>
    cases h0 : H .reader <;> cases h1 : H .writer <;> cases h2 : H .data <;>
    simp_all [Call.winCode, Code.lock, Code.winDropW, Code.winDropS, Code.winSread, Leaves, plus, minus,
      HeldAfter, handsOut, handsBack, mayHandOut, forall_lockId]

theorem winNoAcq_unwind {σ : Type} (f : σ → Outcome σ) (H : LockId → Bool) : NoAcq (winUnwindCode f H) := by
  cases h0 : H .reader <;> cases h1 : H .writer <;> cases h2 : H .data <;>
    simp [winUnwindCode, Code.winDropW, NoAcq, h0, h1, h2]

instance : LawfulLocks WTerm WinSt where
  good_unwind := fun o scr _ f H => winGood_unwind o scr f H
  good_typed := fun scr _ H c h => winGood_typed scr H c h
  leaves_unwind := fun _ f H => winLeaves_unwind f H
  leaves_code := fun scr _ H c h => winLeaves_code scr H c h
  noAcq_unwind := fun _ f H => winNoAcq_unwind f H

theorem winGood_careful {scr : Bool} {t : WTerm} {ws : WinSt} {s : Sys WinSt} {tr : List (Nat × Label WinSt)}
    (e : Exec t (CarefulWin scr) (Sys.init ws) tr s) : AllGood True scr s :=
  good_exec (fun H c hd hm => winGood_code scr H c (hd trivial) hm) e (good_init _ _ ws)

/-- What is careful on Unix is so on Windows. -/
theorem careful_win {σ : Type} {scr : Bool} {H : LockId → Bool} {c : Call σ} (h : Careful scr H c) :
    CarefulWin scr H c := by
  obtain ⟨⟨ht, hr⟩, hl⟩ := h
  have sub : ∀ l ∈ takesWin c, l ∈ takes c := by
    cases c <;> simp [takesWin, takes]
  exact ⟨⟨ht, fun x => hr (sub _ x)⟩, fun l x => hl l (sub l x)⟩

/-- What is careful on Windows is so on Unix, apart from reads. -/
theorem careful_unix {σ : Type} {scr : Bool} {H : LockId → Bool} {c : Call σ} (h : CarefulWin scr H c)
    (hr : isRead c = true → H .writer = false ∧ H .data = false) : Careful scr H c := by
  obtain ⟨⟨ht, hw⟩, hl⟩ := h
  cases c <;> simp_all [takesWin, takes, Careful, ReadFirst, isRead]

theorem Exec.weaken {ε σ : Type} [LockEnv ε σ] {env : ε} {may may' : (LockId → Bool) → Call σ → Prop}
    (h : ∀ H c, may H c → may' H c) {s s' : Sys σ} {tr : List (Nat × Label σ)} (e : Exec env may s tr s') :
    Exec env may' s tr s' := by
  induction e with
  | nil s => exact .nil s
  | cons st _ ih =>
    refine .cons ?_ ih
    cases st with
    | call e hm => exact .call e (h _ _ hm)
    | acq e hf => exact .acq e hf
    | tryYes e hf => exact .tryYes e hf
    | tryNo e hf => exact .tryNo e hf
    | rel e => exact .rel e
    | use e hw => exact .use e hw
    | left e => exact .left e
    | right e => exact .right e
    | crash e => exact .crash e

/-! ## Sessions -/

theorem tidy_none {σ : Type} (c : Code σ) (p : Prop) : Tidy none p c := by
  induction c generalizing p with
  | done => trivial
  | acq l k q ih1 ih2 => exact ⟨ih1 _, ih2 _⟩
  | tryAcq l k q ih1 ih2 => exact ⟨ih1 _, ih2 _⟩
  | rel l k ih => exact ⟨fun _ h => (h rfl).elim, ih _⟩
  | use f k ih => exact ih _
  | either a b ih1 ih2 => exact ⟨ih1 _, ih2 _⟩
  | panic => trivial

theorem sessions_calls_of {α β : Type} {g : β → α} {ss : List (Nat × List α)}
    (h : ∀ x ∈ ss, ∀ f ∈ x.2, ∃ o, f = g o) :
    ∃ cs : List (Nat × List β), ss = cs.map fun x => (x.1, x.2.map g) := by
  induction ss with
  | nil => exact ⟨[], rfl⟩
  | cons a ss ih =>
    obtain ⟨ops, h1⟩ := calls_exist (h a List.mem_cons_self)
    obtain ⟨cs, h3⟩ := ih fun x hx => h x (List.mem_cons_of_mem _ hx)
    exact ⟨(a.1, ops) :: cs, by rw [List.map_cons, ← h3, ← h1]⟩

theorem apply_traceWin {t : WTerm} {ops : List TOp} {ws ws' : WinSt}
    (h : applyUses (ops.map fun o => WM.outcome (o.win t)) ws = some ws') :
    ∃ res, traceWin t ops ws = some (res, ws') := by
  induction ops generalizing ws with
  | nil => exact ⟨[], by cases h; rfl⟩
  | cons o ops ih =>
    simp only [List.map_cons, applyUses, WM.outcome] at h
    rw [traceWin]
    cases hr : o.win t ws with
    | ok _ s1 =>
      rw [hr] at h
      obtain ⟨res, e⟩ := ih (ws := s1) h
      exact ⟨(o, true) :: res, by simp only [e, Option.map_some]⟩
    | err x s1 =>
      rw [hr] at h
      obtain ⟨res, e⟩ := ih (ws := s1) h
      exact ⟨(o, false) :: res, by simp only [e, Option.map_some]⟩
    | stop x =>
      rw [hr] at h
      cases h

end Mortal
