import Verif.Spec.Live
import Verif.Lemmas.LiveSmooth

/-! # What terminals make of output, known or not -/

namespace Mortal
open Spec

theorem putChar_kept {u : UEnv} {t t' : Term} {ch : Char} (h : t.putChar u ch = some t') :
    t'.size = t.size ∧ t'.attrs = t.attrs ∧ t'.bce = t.bce := by
  have hcut : ∀ (t : Term) (p : Cursor), (t.cut p).size = t.size ∧ (t.cut p).attrs = t.attrs ∧
      (t.cut p).bce = t.bce := by
    intro t p
    unfold Term.cut
    split <;> exact ⟨rfl, rfl, rfl⟩
  unfold Term.putChar at h
  split at h
  · cases h
  · split at h
    · split at h
      · cases h
      · split at h
        · cases h; exact ⟨rfl, rfl, rfl⟩
        · cases h; exact ⟨rfl, rfl, rfl⟩
        · cases h
    · split at h
      · cases h
      · rename_i p _
        split at h
        · cases h
          exact hcut t p
        · split at h
          · cases h
            have h1 := hcut t p
            have h2 := hcut (t.cut p) ⟨p.line, p.column + 1⟩
            exact ⟨h2.1.trans h1.1, h2.2.1.trans h1.2.1, h2.2.2.trans h1.2.2⟩
          · cases h

theorem putText_kept {u : UEnv} : ∀ {s : List Char} {t t' : Term}, t.putText u s = some t' →
    t'.size = t.size ∧ t'.attrs = t.attrs ∧ t'.bce = t.bce
  | [], t, t', h => by cases h; exact ⟨rfl, rfl, rfl⟩
  | ch :: s, t, t', h => by
    simp only [Term.putText, Option.bind_eq_some_iff] at h
    obtain ⟨t1, h1, h2⟩ := h
    have a := putChar_kept h1
    have b := putText_kept h2
    exact ⟨b.1.trans a.1, b.2.1.trans a.2.1, b.2.2.trans a.2.2⟩

/-- What is known of the terminal after any output. -/
theorem step_kept {u : UEnv} {t t' : Term} {o : Out} (h : t.step u o = some t') :
    t'.size = t.size ∧ t'.attrs = devStep t.attrs o ∧ t'.bce = t.bce := by
  cases o with
  | junk b => cases h
  | text b =>
    simp only [Term.step] at h
    split at h
    · exact putText_kept h
    · cases h
  | cap c ps =>
    by_cases hc : c = .cursorAddress
    · subst hc
      match ps, h with
      | [], h => cases h
      | [_], h => cases h
      | [l, c], h =>
        simp only [Term.step] at h
        split at h
        · cases h; exact ⟨rfl, rfl, rfl⟩
        · cases h
      | _ :: _ :: _ :: _, h => cases h
    · cases c
      all_goals first
        | (cases h; exact ⟨rfl, rfl, rfl⟩)
        | cases h
        | exact absurd rfl hc

theorem play_kept {u : UEnv} : ∀ {os : List Out} {t t' : Term}, t.play u os = some t' →
    t'.size = t.size ∧ t'.attrs = os.foldl devStep t.attrs ∧ t'.bce = t.bce
  | [], t, t', h => by cases h; exact ⟨rfl, rfl, rfl⟩
  | o :: os, t, t', h => by
    simp only [Term.play, Option.bind_eq_some_iff] at h
    obtain ⟨t1, h1, h2⟩ := h
    have a := step_kept h1
    have b := play_kept h2
    refine ⟨b.1.trans a.1, ?_, b.2.2.trans a.2.2⟩
    rw [b.2.1, a.2.1]; rfl

theorem mouse_devStep {o : Out} (h : MouseText o) (d : DevAttrs) : devStep d o = d := by
  rcases h with rfl | rfl | rfl | rfl <;> rfl

/-- The escape character is a control character. -/
theorem mouse_step {u : UEnv} {o : Out} (h : MouseText o) (t : Term) : t.step u o = none := by
  have key : ∀ b s, decodeAll b.length b = (Char.ofNat 27 :: s, .done) → t.step u (.text b) = none := by
    intro b s hb
    simp only [Term.step, hb, Term.putText, Term.putChar]
    rw [if_pos (by decide +kernel)]
    rfl
  have hd : ∀ b : Bytes, (decodeAll b.length b).2 = .done →
      (decodeAll b.length b).1.head? = some (Char.ofNat 27) → t.step u (.text b) = none := by
    intro b h1 h2
    cases e : decodeAll b.length b with
    | mk s r =>
      rw [e] at h1 h2
      cases s with
      | nil => cases h2
      | cons c s =>
        dsimp only [List.head?] at h1 h2
        cases h2
        exact key b s (by rw [e, h1])
  rcases h with rfl | rfl | rfl | rfl <;> exact hd _ (by decide +kernel) (by decide +kernel)

theorem react_of_step {u : UEnv} {t t' : Term} {o : Out} (h : t.step u o = some t') :
    t.react u o = some t' := by
  unfold Term.react
  rw [if_neg fun hm => by rw [mouse_step hm] at h; cases h]
  exact h

theorem may_kept {u : UEnv} {t t' : Term} {o : Out} (h : t.May u o t') :
    t'.size = t.size ∧ t'.attrs = devStep t.attrs o ∧ t'.bce = t.bce := by
  cases hr : t.react u o with
  | none => exact h.2 hr
  | some t1 =>
    rw [h.1 t1 hr]
    unfold Term.react at hr
    split at hr
    · rename_i hm
      cases hr
      exact ⟨rfl, (mouse_devStep hm _).symm, rfl⟩
    · exact step_kept hr

theorem reacts_kept {u : UEnv} {t t' : Term} {os : List Out} (h : t.Reacts u os t') :
    t'.size = t.size ∧ t'.attrs = os.foldl devStep t.attrs ∧ t'.bce = t.bce := by
  induction h with
  | nil t => exact ⟨rfl, rfl, rfl⟩
  | cons h1 _ ih =>
    have a := may_kept h1
    refine ⟨ih.1.trans a.1, ?_, ih.2.2.trans a.2.2⟩
    rw [ih.2.1, a.2.1]; rfl

theorem reacts_play {u : UEnv} : ∀ {os : List Out} {t t' t1 : Term}, t.play u os = some t1 →
    t.Reacts u os t' → t' = t1
  | [], t, t', t1, h, hr => by cases h; cases hr; rfl
  | o :: os, t, t', t1, h, hr => by
    simp only [Term.play, Option.bind_eq_some_iff] at h
    obtain ⟨t2, h1, h2⟩ := h
    cases hr with
    | cons m r =>
      have := m.1 t2 (react_of_step h1)
      subst this
      exact reacts_play h2 r

theorem reacts_append {u : UEnv} : ∀ {a b : List Out} {t t' : Term}, t.Reacts u (a ++ b) t' →
    ∃ t1, t.Reacts u a t1 ∧ t1.Reacts u b t'
  | [], b, t, t', h => ⟨t, .nil t, h⟩
  | o :: a, b, t, t', h => by
    cases h with
    | cons m r =>
      obtain ⟨t1, h1, h2⟩ := reacts_append r
      exact ⟨t1, .cons m h1, h2⟩

/-- Output that changes nothing one can see. -/
def Silent (o : Out) : Prop :=
  MouseText o ∨ ∃ c ps, o = .cap c ps ∧
    (c = .cursorNormal ∨ c = .cursorInvisible ∨ c = .keypadXmit ∨ c = .keypadLocal)

theorem silent_react {u : UEnv} {o : Out} (h : Silent o) (t : Term) : t.react u o = some t := by
  rcases h with h | ⟨c, ps, rfl, h⟩
  · unfold Term.react; rw [if_pos h]
  · refine react_of_step ?_
    rcases h with rfl | rfl | rfl | rfl <;> rfl

theorem silent_devStep {o : Out} (h : Silent o) (d : DevAttrs) : devStep d o = d := by
  rcases h with h | ⟨c, ps, rfl, h⟩
  · exact mouse_devStep h d
  · rcases h with rfl | rfl | rfl | rfl <;> rfl

theorem silent_fold {os : List Out} (h : ∀ o ∈ os, Silent o) (d : DevAttrs) :
    os.foldl devStep d = d := by
  induction os with
  | nil => rfl
  | cons o os ih =>
    rw [List.foldl_cons, silent_devStep (h o List.mem_cons_self)]
    exact ih fun o ho => h o (List.mem_cons_of_mem _ ho)

theorem silent_reacts {u : UEnv} {os : List Out} {t t' : Term} (h : ∀ o ∈ os, Silent o)
    (hr : t.Reacts u os t') : t' = t := by
  induction hr with
  | nil t => rfl
  | cons m _ ih =>
    have := m.1 _ (silent_react (h _ List.mem_cons_self) _)
    subst this
    exact ih fun o ho => h o (List.mem_cons_of_mem _ ho)

end Mortal
