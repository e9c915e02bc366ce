import Verif.Spec.CallSteps
import Verif.Lemmas.WinLocks

/-! # The steps of a call, whatever the other threads do -/

namespace Mortal
open Spec

/-- What code that returns does. -/
def Lang {σ : Type} : Code σ → List (Act σ) → Prop
  | .done, as => as = []
  | .acq l k p, as => ∃ as', as = .took l :: as' ∧ (Lang k as' ∨ Lang p as')
  | .tryAcq l y n, as => (∃ as', as = .took l :: as' ∧ Lang y as') ∨ Lang n as
  | .rel l k, as => ∃ as', as = .gave l :: as' ∧ Lang k as'
  | .use f k, as => ∃ as', as = .applied f :: as' ∧ Lang k as'
  | .either a b, as => Lang a as ∨ Lang b as
  | .panic, _ => False

/-- Code that takes locks and panics. -/
def Doomed {σ : Type} : Code σ → Prop
  | .panic => True
  | .acq _ k p => Doomed k ∧ Doomed p
  | _ => False

/-- When a lock turns out to be poisoned, the rest is doomed. -/
def Wary {σ : Type} : Code σ → Prop
  | .done => True
  | .acq _ k p => Wary k ∧ Doomed p
  | .tryAcq _ _ _ => False
  | .rel _ k => Wary k
  | .use _ k => Wary k
  | .either a b => Wary a ∧ Wary b
  | .panic => True

/-- Code that cannot panic. -/
def Calm {σ : Type} : Code σ → Prop
  | .done => True
  | .acq _ k p => Calm k ∧ Calm p
  | .tryAcq _ y n => Calm y ∧ Calm n
  | .rel _ k => Calm k
  | .use _ k => Calm k
  | .either a b => Calm a ∧ Calm b
  | .panic => False

theorem wary_of_doomed {σ : Type} {c : Code σ} (h : Doomed c) : Wary c := by
  induction c with
  | acq l k p ih1 ih2 => exact ⟨ih1 h.1, h.2⟩
  | panic => trivial
  | _ => exact h.elim

theorem doomed_lang {σ : Type} {c : Code σ} (h : Doomed c) (as : List (Act σ)) : ¬ Lang c as := by
  induction c generalizing as with
  | acq l k p ih1 ih2 =>
    rintro ⟨as', -, x | x⟩
    · exact ih1 h.1 _ x
    · exact ih2 h.2 _ x
  | panic => exact id
  | _ => exact h.elim

section
variable {ε σ : Type} [LockEnv ε σ] {env : ε} {may : (LockId → Bool) → Call σ → Prop} {t i : Nat}
  {s s' s'' : Sys σ} {a : Label σ} {tr : List (Nat × Label σ)}

theorem thr_other (st : LStep env may i s a s') (h : i ≠ t) : s'.thr t = s.thr t := by
  have ht : t ≠ i := fun x => h x.symm
  cases st with
  | call _ _ => exact code_goto_other _ ht
  | acq _ _ => exact code_goto_other _ ht
  | tryYes _ _ => exact code_goto_other _ ht
  | tryNo _ _ => exact code_goto_other _ ht
  | rel _ => exact code_goto_other _ ht
  | use _ _ => exact code_goto_other _ ht
  | left _ => exact code_goto_other _ ht
  | right _ => exact code_goto_other _ ht
  | crash _ => simp [Sys.unwind, ht]

theorem panicking_step (st : LStep env may i s a s') (h : (s.thr t).panicking = true) :
    (s'.thr t).panicking = true := by
  by_cases hi : i = t
  · subst hi
    cases st with
    | call e _ => rw [e] at h; cases h
    | crash e => rw [e] at h; cases h
    | _ => simpa [Sys.goto, Sys.setOwner] using h
  · rw [thr_other st hi]; exact h

theorem panicking_stays (e : Exec env may s tr s') (h : (s'.thr t).panicking = false) :
    (s.thr t).panicking = false := by
  induction e with
  | nil s => exact h
  | cons st _ ih =>
    cases hp : (Sys.thr _ t).panicking with
    | false => rfl
    | true => have := ih h; rw [panicking_step st hp] at this; cases this

theorem own_other {l : List (Nat × Label σ)} (h : i ≠ t) : own t ((i, a) :: l) = own t l := by
  have : (i == t) = false := by simpa using h
  simp [own, this]

theorem nocall_tail {x : Nat × Label σ} (h : NoCall t (x :: tr)) : NoCall t tr :=
  fun c hc => h c (List.mem_cons_of_mem _ hc)

/-- What a thread does until its call has returned. -/
theorem own_lang (e : Exec env may s tr s') (hn : NoCall t tr) (hd : (s'.thr t).code = .done)
    (hp : (s'.thr t).panicking = (s.thr t).panicking) :
    Lang (s.thr t).code (own t tr) := by
  induction e with
  | nil s => rw [hd]; rfl
  | @cons s s1 s2 i a tr st e1 ih =>
    by_cases hi : i = t
    · subst hi
      have ih := fun x => ih (nocall_tail hn) hd (hp.trans x)
      cases st with
      | call _ _ => exact absurd List.mem_cons_self (hn _)
      | @acq l k p e _ =>
        replace ih := ih (by simp [Sys.goto, Sys.setOwner])
        rw [code_goto] at ih
        rw [e]
        simp only [own, beq_self_eq_true]
        refine ⟨_, rfl, ?_⟩
        split at ih
        · exact .inr ih
        · exact .inl ih
      | tryYes e _ =>
        replace ih := ih (by simp [Sys.goto, Sys.setOwner])
        rw [code_goto] at ih
        rw [e]
        simp only [own, beq_self_eq_true]
        exact .inl ⟨_, rfl, ih⟩
      | tryNo e _ =>
        replace ih := ih (by simp [Sys.goto])
        rw [code_goto] at ih
        rw [e]
        simp only [own, beq_self_eq_true]
        exact .inr ih
      | rel e =>
        replace ih := ih (by simp [Sys.goto, Sys.setOwner])
        rw [code_goto] at ih
        rw [e]
        simp only [own, beq_self_eq_true]
        exact ⟨_, rfl, ih⟩
      | @use f k w e _ =>
        have ih : Lang k (own i tr) := by
          have := code_goto s i k
          rw [← this]; exact ih (by simp [Sys.goto])
        rw [e]
        simp only [own, beq_self_eq_true]
        exact ⟨_, rfl, ih⟩
      | left e =>
        replace ih := ih (by simp [Sys.goto])
        rw [code_goto] at ih
        rw [e]
        simp only [own, beq_self_eq_true]
        exact .inl ih
      | right e =>
        replace ih := ih (by simp [Sys.goto])
        rw [code_goto] at ih
        rw [e]
        simp only [own, beq_self_eq_true]
        exact .inr ih
      | @crash f h =>
        rw [h] at hp
        have := panicking_stays (t := i) e1 hp
        simp [Sys.unwind] at this
    · rw [own_other hi, ← thr_other st hi]
      exact ih (nocall_tail hn) hd (by rw [thr_other st hi]; exact hp)

theorem nocall_panicking (e : Exec env may s tr s') (h : (s.thr t).panicking = true) : NoCall t tr := by
  induction e with
  | nil s => intro c hc; cases hc
  | @cons s s1 s2 i a tr st e1 ih =>
    intro c hc
    rcases List.mem_cons.1 hc with x | x
    · obtain ⟨rfl, rfl⟩ := Prod.mk.inj x
      cases st with
      | call e _ => rw [e] at h; cases h
    · exact ih (panicking_step st h) c x

theorem panicking_exec (e : Exec env may s tr s') (h : (s.thr t).panicking = true) :
    (s'.thr t).panicking = true := by
  induction e with
  | nil s => exact h
  | cons st _ ih => exact ih (panicking_step st h)

/-- What a thread's code is like is kept. -/
theorem code_kept {P : Code σ → Prop} (hacq : ∀ l k p, P (.acq l k p) → P k ∧ P p)
    (htry : ∀ l k p, P (.tryAcq l k p) → P k ∧ P p) (hrel : ∀ l k, P (.rel l k) → P k)
    (huse : ∀ f k, P (.use f k) → P k) (he : ∀ a b, P (.either a b) → P a ∧ P b)
    (e : Exec env may s tr s') (hn : NoCall t tr) (hp : (s'.thr t).panicking = false)
    (h : P (s.thr t).code) : P (s'.thr t).code := by
  induction e with
  | nil s => exact h
  | @cons s s1 s2 i a tr st e1 ih =>
    refine ih (nocall_tail hn) hp ?_
    by_cases hi : i = t
    · subst hi
      cases st with
      | call _ _ => exact absurd List.mem_cons_self (hn _)
      | @acq l k p e _ =>
        rw [e] at h
        rw [code_goto]
        split
        · exact (hacq _ _ _ h).2
        · exact (hacq _ _ _ h).1
      | tryYes e _ => rw [e] at h; rw [code_goto]; exact (htry _ _ _ h).1
      | tryNo e _ => rw [e] at h; rw [code_goto]; exact (htry _ _ _ h).2
      | rel e => rw [e] at h; rw [code_goto]; exact hrel _ _ h
      | @use f k w e _ =>
        rw [e] at h
        have := code_goto s i k
        show P ((s.goto i k).thr i).code
        rw [this]; exact huse _ _ h
      | left e => rw [e] at h; rw [code_goto]; exact (he _ _ h).1
      | right e => rw [e] at h; rw [code_goto]; exact (he _ _ h).2
      | @crash f _ =>
        have := panicking_stays (t := i) e1 hp
        simp [Sys.unwind] at this
    · rw [thr_other st hi]; exact h

theorem wary_kept (e : Exec env may s tr s') (hn : NoCall t tr) (hp : (s'.thr t).panicking = false)
    (h : Wary (s.thr t).code) : Wary (s'.thr t).code :=
  code_kept (P := Wary) (fun _ _ _ h => ⟨h.1, wary_of_doomed h.2⟩) (fun _ _ _ h => h.elim) (fun _ _ h => h)
    (fun _ _ h => h) (fun _ _ h => h) e hn hp h

theorem calm_kept (e : Exec env may s tr s') (hn : NoCall t tr) (hp : (s'.thr t).panicking = false)
    (h : Calm (s.thr t).code) : Calm (s'.thr t).code :=
  code_kept (P := Calm) (fun _ _ _ h => h) (fun _ _ _ h => h) (fun _ _ h => h)
    (fun _ _ h => h) (fun _ _ h => h) e hn hp h

/-- A doomed thread applies nothing to the writer and gives nothing back. -/
theorem doomed_acts (e : Exec env may s tr s') (hn : NoCall t tr) (hp : (s'.thr t).panicking = false)
    (h : Doomed (s.thr t).code) :
    Doomed (s'.thr t).code ∧ ∀ x ∈ own t tr, ∃ l, x = .took l := by
  induction e with
  | nil s => exact ⟨h, by simp [own]⟩
  | @cons s s1 s2 i a tr st e1 ih =>
    by_cases hi : i = t
    · subst hi
      cases st with
      | call _ _ => exact absurd List.mem_cons_self (hn _)
      | @acq l k p e _ =>
        rw [e] at h
        obtain ⟨h1, h2⟩ := ih (nocall_tail hn) hp (by
          rw [code_goto]
          split
          · exact h.2
          · exact h.1)
        refine ⟨h1, ?_⟩
        simp only [own, beq_self_eq_true, List.mem_cons]
        rintro x (rfl | hx)
        · exact ⟨_, rfl⟩
        · exact h2 x hx
      | @crash f _ =>
        have := panicking_stays (t := i) e1 hp
        simp [Sys.unwind] at this
      | tryYes e _ => rw [e] at h; exact h.elim
      | tryNo e _ => rw [e] at h; exact h.elim
      | rel e => rw [e] at h; exact h.elim
      | use e _ => rw [e] at h; exact h.elim
      | left e => rw [e] at h; exact h.elim
      | right e => rw [e] at h; exact h.elim
    · rw [own_other hi]
      exact ih (nocall_tail hn) hp (by rw [thr_other st hi]; exact h)

/-- A wary thread that gets a poisoned lock is doomed. -/
theorem wary_doomed {l : LockId} (st : LStep env may t s (.acq l) s') (h : Wary (s.thr t).code)
    (hp : (s.mx l).poisoned = true) : Doomed (s'.thr t).code := by
  cases st with
  | acq e _ =>
    rw [e] at h
    rw [code_goto, if_pos hp]
    exact h.2
  | tryYes e _ => rw [e] at h; exact h.elim

end

/-! ## Calls -/

section
variable {ε σ : Type} [LockEnv ε σ] {env : ε} {may : (LockId → Bool) → Call σ → Prop} {t : Nat} {c : Call σ}
  {s0 s1 s2 s3 s4 : Sys σ} {tr tr' : List (Nat × Label σ)}

theorem call_lang (ec : LStep env may t s0 (.call c) s1) (e : Exec env may s1 tr s2) (hn : NoCall t tr)
    (hd : s2.thr t = ⟨.done, false⟩) : Lang (LockEnv.code env c) (own t tr) := by
  have h := own_lang e hn (by rw [hd]) (by rw [panicking_stays (t := t) e (by rw [hd]), hd])
  cases ec with
  | call _ _ => rw [code_goto] at h; exact h

theorem call_poisoned {l : LockId} (hw : Wary (LockEnv.code env c)) (ec : LStep env may t s0 (.call c) s1)
    (e1 : Exec env may s1 tr s2) (hn : NoCall t tr) (st : LStep env may t s2 (.acq l) s3)
    (hp : (s2.mx l).poisoned = true) (e2 : Exec env may s3 tr' s4) (hn' : NoCall t tr')
    (hq : (s4.thr t).panicking = false) :
    (s4.thr t).code ≠ .done ∧ ∀ x ∈ own t tr', ∃ l, x = .took l := by
  have h3 := panicking_stays (t := t) (.cons st e2) hq
  have h1 : Wary (s1.thr t).code := by
    cases ec with
    | call _ _ => rw [code_goto]; exact hw
  obtain ⟨h4, h5⟩ := doomed_acts e2 hn' hq (wary_doomed st (wary_kept e1 hn h3 h1) hp)
  exact ⟨fun x => by rw [x] at h4; exact h4, h5⟩

theorem call_calm (hw : Calm (LockEnv.code env c)) (ec : LStep env may t s0 (.call c) s1)
    (e1 : Exec env may s1 tr s2) (hn : NoCall t tr) (hq : (s2.thr t).panicking = false) :
    (s2.thr t).code ≠ .panic := by
  have h1 : Calm (s1.thr t).code := by
    cases ec with
    | call _ _ => rw [code_goto]; exact hw
  have := calm_kept e1 hn hq h1
  exact fun x => by rw [x] at this; exact this

theorem panic_lang (ec : LStep env may t s0 .crash s1) (e : Exec env may s1 tr s2) (hd : (s2.thr t).code = .done) :
    ∃ f, Lang (LockEnv.unwind env f (s0.holds t)) (own t tr) := by
  cases ec with
  | @crash f _ =>
    have hp : ((s0.unwind t (LockEnv.unwind env f (s0.holds t))).thr t).panicking = true := by simp [Sys.unwind]
    have h := own_lang e (nocall_panicking e hp) hd (by rw [panicking_exec e hp, hp])
    refine ⟨f, ?_⟩
    simpa [Sys.unwind] using h

end

/-! ## The code of the calls -/

theorem does_read {σ : Type} {fin : List (σ → Outcome σ)} {tk : Call σ → List LockId}
    {ak : Call σ → List (σ → Outcome σ)} {intr : Call σ → List (Act σ) → Prop} {c : Call σ} {m as : List (Act σ)}
    (h1 : isRead c = true) (h2 : needs c = []) (h3 : intr c m) (e : as = .took .reader :: m ++ [.gave .reader]) :
    DoesCall fin tk ak intr c as := e ▸ .read h1 h2 h3

theorem does_guard {σ : Type} {fin : List (σ → Outcome σ)} {tk : Call σ → List LockId}
    {ak : Call σ → List (σ → Outcome σ)} {intr : Call σ → List (Act σ) → Prop} {c : Call σ} {m as : List (Act σ)}
    (h1 : isRead c = true) (h2 : needs c = [.reader]) (h3 : intr c m) (e : as = m) :
    DoesCall fin tk ak intr c as := e ▸ .readGuard h1 h2 h3

theorem lang_code (env : WEnv) (c : Call WS) (as : List (Act WS)) (h : Lang (c.code env) as) :
    DoesUnix env c as := by
  cases c <;>
    simp only [Call.code, Code.lock, Code.dropW, Code.dropS, Code.handle, Code.sread, Lang, or_false,
      exists_eq_right, or_self, exists_false, and_false, exists_or, and_or_left] at h
  case tTryLockRead | sTryLockRead | tTryLockWrite =>
    rcases h with rfl | rfl
    · exact .tryAll (by simp [mayHandOut])
    · exact .tryBack (got := []) (List.nil_sublist _) (by simp [mayHandOut])
  case sTryLockWrite =>
    rcases h with (rfl | rfl) | rfl | rfl
    · exact .tryAll (by simp [mayHandOut])
    · exact .tryBack (got := [.writer]) (by simp [mayHandOut]) (by simp [mayHandOut])
    · exact .tryBack (got := [.data]) (by simp [mayHandOut]) (by simp [mayHandOut])
    · exact .tryBack (got := []) (List.nil_sublist _) (by simp [mayHandOut])
  case tRead f =>
    rcases h with rfl | rfl | rfl
    · exact does_read rfl rfl (Interrupt.nothing _) rfl
    · exact does_read rfl rfl (Interrupt.resizeT rfl) rfl
    · exact does_read rfl rfl (Interrupt.continued (f := f) (by simp)) rfl
  case trRead f =>
    rcases h with rfl | rfl | rfl
    · exact does_guard rfl rfl (Interrupt.nothing _) rfl
    · exact does_guard rfl rfl (Interrupt.resizeT rfl) rfl
    · exact does_guard rfl rfl (Interrupt.continued (f := f) (by simp)) rfl
  case sRead f =>
    rcases h with rfl | rfl | rfl
    · exact does_read rfl rfl (Interrupt.nothing _) rfl
    · exact does_read rfl rfl (Interrupt.resizeS rfl) rfl
    · exact does_read rfl rfl (Interrupt.continued (f := f) (by simp)) rfl
  case srRead f =>
    rcases h with rfl | rfl | rfl
    · exact does_guard rfl rfl (Interrupt.nothing _) rfl
    · exact does_guard rfl rfl (Interrupt.resizeS rfl) rfl
    · exact does_guard rfl rfl (Interrupt.continued (f := f) (by simp)) rfl
  all_goals subst h; exact .plain rfl rfl

theorem lang_win {σ : Type} (c : Call σ) (as : List (Act σ)) (h : Lang c.winCode as) : DoesWin c as := by
  cases c <;>
    simp only [Call.winCode, Code.lock, Code.winDropW, Code.winDropS, Code.winSread, Lang, or_false,
      exists_eq_right, or_self, exists_false, and_false, exists_or, and_or_left] at h
  case tTryLockRead | sTryLockRead | tTryLockWrite =>
    rcases h with rfl | rfl
    · exact .tryAll (by simp [mayHandOut])
    · exact .tryBack (got := []) (List.nil_sublist _) (by simp [mayHandOut])
  case sTryLockWrite =>
    rcases h with (rfl | rfl) | rfl | rfl
    · exact .tryAll (by simp [mayHandOut])
    · exact .tryBack (got := [.writer]) (by simp [mayHandOut]) (by simp [mayHandOut])
    · exact .tryBack (got := [.data]) (by simp [mayHandOut]) (by simp [mayHandOut])
    · exact .tryBack (got := []) (List.nil_sublist _) (by simp [mayHandOut])
  case tRead f => subst h; exact does_read rfl rfl (InterruptWin.nothing _) rfl
  case trRead f => subst h; exact does_guard rfl rfl (InterruptWin.nothing _) rfl
  case sRead f =>
    rcases h with rfl | rfl
    · exact does_read rfl rfl (InterruptWin.nothing _) rfl
    · exact does_read rfl rfl (InterruptWin.resizeS rfl) rfl
  case srRead f =>
    rcases h with rfl | rfl
    · exact does_guard rfl rfl (InterruptWin.nothing _) rfl
    · exact does_guard rfl rfl (InterruptWin.resizeS rfl) rfl
  all_goals subst h; exact .plain rfl rfl

theorem lang_unwind (env : WEnv) (f : WS → Outcome WS) (H : LockId → Bool) (as : List (Act WS))
    (h : Lang (unwindCode env f H) as) :
    as = work [WOp.sessionEnd.run env] [] (if H .writer then [f] else []) (heldOf H) := by
  cases h0 : H .reader <;> cases h1 : H .writer <;> cases h2 : H .data <;>
    simp [unwindCode, Code.dropW, Lang, h0, h1, h2] at h <;> simp [work, heldOf, h, h0, h1, h2]

theorem lang_winUnwind {σ : Type} (f : σ → Outcome σ) (H : LockId → Bool) (as : List (Act σ))
    (h : Lang (winUnwindCode f H) as) :
    as = work [] [] (if H .writer && H .data then [f] else []) (heldOf H) := by
  cases h0 : H .reader <;> cases h1 : H .writer <;> cases h2 : H .data <;>
    simp [winUnwindCode, Code.winDropW, Lang, h0, h1, h2] at h <;> simp [work, heldOf, h, h0, h1, h2]

theorem wary_code (env : WEnv) (c : Call WS) (h : asksForGuard c = false) : Wary (c.code env) := by
  cases c <;> simp [asksForGuard, handsOut, mayHandOut] at h <;>
    simp [Call.code, Code.lock, Code.dropW, Code.dropS, Code.handle, Code.sread, Wary, Doomed]

theorem wary_win {σ : Type} (c : Call σ) (h : asksForGuard c = false) : Wary c.winCode := by
  cases c <;> simp [asksForGuard, handsOut, mayHandOut] at h <;>
    simp [Call.winCode, Code.lock, Code.winDropW, Code.winDropS, Code.winSread, Wary, Doomed]

theorem calm_code (env : WEnv) (c : Call WS) (h : asksForGuard c = true) : Calm (c.code env) := by
  cases c <;> simp [asksForGuard, handsOut, mayHandOut] at h <;>
    simp [Call.code, Code.dropW, Calm]

theorem calm_win {σ : Type} (c : Call σ) (h : asksForGuard c = true) : Calm c.winCode := by
  cases c <;> simp [asksForGuard, handsOut, mayHandOut] at h <;>
    simp [Call.winCode, Code.winDropW, Calm]

end Mortal
