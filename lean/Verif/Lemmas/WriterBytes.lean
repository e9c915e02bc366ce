import Verif.Lemmas.Writer

namespace Mortal
open Spec

/-! ## Invariants of every call -/

/-- A property of the writer preserved by its primitive actions. -/
structure Inv4 (env : WEnv) (P : WS → Prop) : Prop where
  attrs : ∀ s fg bg st, P s → P { s with fg := fg, bg := bg, style := st }
  expand : ∀ c ps f s, env.db c = some f → P s → Always (expand env c ps f s) P
  flush : ∀ s, P s → Always (flush s) P
  write : ∀ b s, P s → Always (writeBytes b s) P

theorem inv_expandOpt {env : WEnv} {P : WS → Prop} (hP : Inv4 env P) (c : Cap) (ps : List Nat)
    (s : WS) (h : P s) : Always (expandOpt env c ps s) P := by
  unfold expandOpt
  split
  · rename_i f hf; exact hP.expand c ps f s hf h
  · exact Always.ok h

theorem inv_expandReq {env : WEnv} {P : WS → Prop} (hP : Inv4 env P) (c : Cap) (ps : List Nat)
    (s : WS) (h : P s) : Always (expandReq env c ps s) P := by
  unfold expandReq
  split
  · rename_i f hf; exact hP.expand c ps f s hf h
  · exact Always.err h

theorem inv_whenDo {P : WS → Prop} (b : Bool) {f : WS → Outcome WS}
    (hf : ∀ s, P s → Always (f s) P) (s : WS) (h : P s) : Always (whenDo b f s) P := by
  unfold whenDo
  split
  · exact hf s h
  · exact Always.ok h

/-- A property preserved by the attribute commands. -/
structure InvA (env : WEnv) (P : WS → Prop) : Prop where
  attrs : ∀ s fg bg st, P s → P { s with fg := fg, bg := bg, style := st }
  expand : ∀ c ps f s, IsAttrCap c → env.db c = some f → P s → Always (expand env c ps f s) P

theorem Inv4.toA {env : WEnv} {P : WS → Prop} (hP : Inv4 env P) : InvA env P :=
  ⟨hP.attrs, fun c ps f s _ => hP.expand c ps f s⟩

theorem inva_expandOpt {env : WEnv} {P : WS → Prop} (hP : InvA env P) (c : Cap) (hc : IsAttrCap c)
    (ps : List Nat) (s : WS) (h : P s) : Always (expandOpt env c ps s) P := by
  unfold expandOpt
  split
  · rename_i f hf; exact hP.expand c ps f s hc hf h
  · exact Always.ok h

theorem inva_clear {env : WEnv} {P : WS → Prop} (hP : InvA env P) (s : WS) (h : P s) :
    Always (clearAttributes env s) P := by
  unfold clearAttributes
  split
  · exact inva_expandOpt hP _ (by exact trivial) _ _ (hP.attrs s _ _ _ h)
  · exact Always.ok h

theorem inva_addStyle {env : WEnv} {P : WS → Prop} (hP : InvA env P) (st : Style) (s : WS)
    (h : P s) : Always (addStyle env st s) P := by
  unfold addStyle
  refine Always.andThen (Always.andThen (Always.andThen (Always.andThen ?_ ?_) ?_) ?_) ?_
  · exact inv_whenDo _ (inva_expandOpt hP _ (by exact trivial) _) s h
  · exact inv_whenDo _ (inva_expandOpt hP _ (by exact trivial) _)
  · exact inv_whenDo _ (inva_expandOpt hP _ (by exact trivial) _)
  · exact inv_whenDo _ (inva_expandOpt hP _ (by exact trivial) _)
  · exact fun s h => Always.ok (hP.attrs s s.fg s.bg _ h)

theorem inva_areq {env : WEnv} {P : WS → Prop} (hP : InvA env P) :
    ∀ (n : Nat) (r : AReq) (s : WS), P s → Always (areq env n r s) P := by
  intro n
  induction n with
  | zero => intro r s h; unfold areq; exact Always.stop
  | succ n ih =>
    intro r s h
    cases r with
    | setFg c =>
      unfold areq
      split
      · exact Always.ok h
      · refine Always.andThen ?_ fun s h => Always.ok (hP.attrs s _ s.bg s.style h)
        cases c with
        | none => exact ih _ s h
        | some c => exact inva_expandOpt hP _ (by exact trivial) _ s h
    | setBg c =>
      unfold areq
      split
      · exact Always.ok h
      · refine Always.andThen ?_ fun s h => Always.ok (hP.attrs s s.fg _ s.style h)
        cases c with
        | none => exact ih _ s h
        | some c => exact inva_expandOpt hP _ (by exact trivial) _ s h
    | clearFg =>
      unfold areq
      exact Always.andThen (Always.andThen (inva_clear hP s h) (ih _)) (ih _)
    | clearBg =>
      unfold areq
      exact Always.andThen (Always.andThen (inva_clear hP s h) (ih _)) (ih _)
    | removeStyle st =>
      unfold areq
      dsimp only
      split
      · exact Always.andThen (Always.andThen (Always.andThen (inva_clear hP s h)
          (inva_addStyle hP _)) (ih _)) (ih _)
      · exact Always.andThen (Always.andThen (inv_whenDo _ (inva_expandOpt hP _ (by exact trivial) _) s h)
          (inv_whenDo _ (inva_expandOpt hP _ (by exact trivial) _))) fun s h => Always.ok (hP.attrs s s.fg s.bg _ h)
    | setStyle st =>
      unfold areq
      dsimp only
      split
      · exact Always.andThen (Always.andThen (Always.andThen (inva_clear hP s h)
          (ih _)) (ih _)) (inva_addStyle hP _)
      · exact Always.andThen (inva_addStyle hP _ s h) (ih _)

theorem inva_setAttrs {env : WEnv} {P : WS → Prop} (hP : InvA env P) (fg bg : Option Color)
    (st : Style) (s : WS) (h : P s) : Always (setAttrs env fg bg st s) P := by
  unfold setAttrs
  exact Always.andThen (Always.andThen (Always.andThen (inv_whenDo _ (inva_clear hP) s h)
    (inva_areq hP _ _)) (inva_areq hP _ _)) (inva_areq hP _ _)

theorem inv_clear {env : WEnv} {P : WS → Prop} (hP : Inv4 env P) (s : WS) (h : P s) :
    Always (clearAttributes env s) P := inva_clear hP.toA s h

theorem inv_addStyle {env : WEnv} {P : WS → Prop} (hP : Inv4 env P) (st : Style) (s : WS)
    (h : P s) : Always (addStyle env st s) P := inva_addStyle hP.toA st s h

theorem inv_areq {env : WEnv} {P : WS → Prop} (hP : Inv4 env P)
    (n : Nat) (r : AReq) (s : WS) (h : P s) : Always (areq env n r s) P :=
  inva_areq hP.toA n r s h

theorem inv_setAttrs {env : WEnv} {P : WS → Prop} (hP : Inv4 env P) (fg bg : Option Color)
    (st : Style) (s : WS) (h : P s) : Always (setAttrs env fg bg st s) P :=
  inva_setAttrs hP.toA fg bg st s h

theorem inv_moveCursor {env : WEnv} {P : WS → Prop} (hP : Inv4 env P) (p : Cursor) (s : WS)
    (h : P s) : Always (moveCursor env p s) P := by
  unfold moveCursor
  split
  · rename_i addr home ha
    split
    · exact hP.expand _ _ _ s ha h
    · split
      · rename_i a ha'
        exact hP.expand _ _ _ s ha' h
      · exact Always.err h
  · rename_i a ha _
    exact hP.expand _ _ _ s ha h
  · exact Always.err h

theorem inv_run {env : WEnv} {P : WS → Prop} (hP : Inv4 env P) (op : WOp) (s : WS) (h : P s) :
    Always (op.run env s) P := by
  cases op
  case setFg c => exact inv_areq hP _ _ s h
  case setBg c => exact inv_areq hP _ _ s h
  case addStyle st => exact inv_addStyle hP st s h
  case removeStyle st => exact inv_areq hP _ _ s h
  case setStyle st => exact inv_areq hP _ _ s h
  case setTheme th => exact inv_setAttrs hP _ _ _ s h
  case clearAttributes => exact inv_clear hP s h
  case writeStyled fg bg st b =>
    exact Always.andThen (Always.andThen (inv_setAttrs hP _ _ _ s h) (hP.write b)) (inv_clear hP)
  case writeStr b => exact hP.write b s h
  case flush => exact hP.flush s h
  case clearScreen => exact inv_expandReq hP _ _ s h
  case clearToLineEnd => exact inv_expandReq hP _ _ s h
  case clearToScreenEnd => exact inv_expandReq hP _ _ s h
  case moveUp n =>
    simp only [WOp.run, moveUp]
    split
    · exact inv_expandReq hP _ _ s h
    · split
      · exact inv_expandReq hP _ _ s h
      · exact Always.ok h
  case moveDown n =>
    simp only [WOp.run, moveDown]
    split
    · exact inv_expandReq hP _ _ s h
    · exact Always.ok h
  case moveLeft n =>
    simp only [WOp.run, moveLeft]
    split
    · exact inv_expandReq hP _ _ s h
    · split
      · exact inv_expandReq hP _ _ s h
      · exact Always.ok h
  case moveRight n =>
    simp only [WOp.run, moveRight]
    split
    · exact inv_expandReq hP _ _ s h
    · split
      · exact inv_expandReq hP _ _ s h
      · exact Always.ok h
  case moveToFirstColumn => exact hP.write _ s h
  case moveCursor p => exact inv_moveCursor hP p s h
  case setCursorMode m => cases m <;> exact inv_expandOpt hP _ _ s h
  case sessionEnd =>
    have hfl := hP.flush s h
    simp only [WOp.run]
    split
    · rename_i s' e
      exact Always.ok (hfl s' (by rw [e]; rfl))
    · exact hfl

theorem inv_enter {env : WEnv} {P : WS → Prop} (hP : Inv4 env P) (size : Option Size) (s : WS)
    (h : P s) : Always (enterScreen env size s) P := by
  unfold enterScreen
  refine Always.andThen (Always.andThen ?_ (inv_clear hP)) (inv_expandReq hP _ _)
  split
  · rename_i scroll home h1 h2
    split
    · exact Always.err h
    · refine Always.andThen (inv_expandOpt hP _ _ s h) fun s h => ?_
      split
      · exact Always.stop
      · exact Always.andThen (hP.expand _ _ _ s h1 h) fun s h => hP.expand _ _ _ s h2 h
  · exact Always.err h
  · exact Always.err h

theorem inv_runW {env : WEnv} {P : WS → Prop} (hP : Inv4 env P) :
    ∀ (ops : List WOp) (s s' : WS), P s → runW env ops s = some s' → P s' := by
  intro ops
  induction ops with
  | nil => intro s s' h e; cases e; exact h
  | cons op ops ih =>
    intro s s' h e
    simp only [runW] at e
    cases ho : (op.run env s).state with
    | none => rw [ho] at e; cases e
    | some s1 =>
      rw [ho] at e
      exact ih s1 s' (inv_run hP op s h s1 ho) e

/-! ## Delivery -/

/-- What `write_data` does when there are no short writes. -/
theorem writeData_whole (buf : Bytes) : ∀ (os : List WriteRes) (dev : Bytes),
    NoShortWrites os →
    match writeData buf os 0 dev with
    | .blocked => True
    | .done n os' dev' none => NoShortWrites os' ∧ n = buf.length ∧ dev' = dev ++ buf
    | .done n os' dev' (some _) => NoShortWrites os' ∧ n = 0 ∧ dev' = dev := by
  intro os
  induction os with
  | nil =>
    intro dev h
    unfold writeData
    by_cases hl : 0 = buf.length
    · rw [if_pos hl]
      exact ⟨h, hl, by simp [List.eq_nil_of_length_eq_zero hl.symm]⟩
    · rw [if_neg hl]; trivial
  | cons r os ih =>
    intro dev h
    have h' : NoShortWrites os := fun n hn => h n (List.mem_cons_of_mem _ hn)
    unfold writeData
    by_cases hl : 0 = buf.length
    · rw [if_pos hl]
      exact ⟨h, hl, by simp [List.eq_nil_of_length_eq_zero hl.symm]⟩
    · rw [if_neg hl]
      cases r with
      | all =>
        dsimp only
        rw [Nat.zero_add]
        have : writeData buf os buf.length (dev ++ buf) =
            .done buf.length os (dev ++ buf) none := by
          unfold writeData; rw [if_pos rfl]
        rw [this]
        exact ⟨h', rfl, rfl⟩
      | wrote n =>
        have hn : n = 0 := h n (by simp)
        subst hn
        exact ⟨h', rfl, rfl⟩
      | eintr => exact ih dev h'
      | fail => exact ⟨h', rfl, rfl⟩

/-- Bytes delivered and pending are those handed over. -/
def Delivered (env : WEnv) (s : WS) : Prop :=
  NoShortWrites s.os ∧ s.dev ++ s.pending = logBytes env s.log

theorem logBytes_snoc (env : WEnv) (l : List Out) (o : Out) :
    logBytes env (l ++ [o]) = logBytes env l ++ outBytes env o := by
  simp [logBytes, List.flatMap_append]

/-- `flush` when there are no short writes. -/
theorem flush_whole (s : WS) (h : NoShortWrites s.os) :
    match flush s with
    | .ok s' => NoShortWrites s'.os ∧ s'.dev = s.dev ++ s.pending ∧ s'.pending = [] ∧
        s'.log = s.log ∧ s'.capacity = s.capacity
    | .err _ s' => NoShortWrites s'.os ∧ s'.dev = s.dev ∧ s'.pending = s.pending ∧
        s'.log = s.log ∧ s'.capacity = s.capacity
    | .stop w => w = .blocked := by
  unfold flush
  have hw := writeData_whole s.pending s.os s.dev h
  cases hd : writeData s.pending s.os 0 s.dev with
  | blocked => rfl
  | done n os dev r =>
    rw [hd] at hw
    cases r with
    | none =>
      obtain ⟨h1, h2, h3⟩ := hw
      subst h2
      dsimp only
      rw [if_neg (by omega)]
      exact ⟨h1, h3, by simp, rfl, rfl⟩
    | some e =>
      obtain ⟨h1, h2, h3⟩ := hw
      subst h2
      dsimp only
      rw [if_neg (by omega)]
      exact ⟨h1, h3, by simp, rfl, rfl⟩

/-- `write_bytes` when there are no short writes: either everything is accepted, or nothing. -/
theorem writeBytes_whole (b : Bytes) (s : WS) (h : NoShortWrites s.os) :
    match writeBytes b s with
    | .ok s' => NoShortWrites s'.os ∧ s'.dev ++ s'.pending = s.dev ++ s.pending ++ b ∧
        s'.log = s.log ++ [.text b]
    | .err _ s' => NoShortWrites s'.os ∧ s'.dev ++ s'.pending = s.dev ++ s.pending ∧
        s'.log = s.log
    | .stop w => w = .blocked := by
  unfold writeBytes
  have hpre : match (if b.length + s.pending.length > s.capacity then flush s else .ok s) with
    | .ok s' => NoShortWrites s'.os ∧ s'.dev ++ s'.pending = s.dev ++ s.pending ∧
        s'.log = s.log ∧ (b.length > s'.capacity → s'.pending = [])
    | .err _ s' => NoShortWrites s'.os ∧ s'.dev ++ s'.pending = s.dev ++ s.pending ∧
        s'.log = s.log
    | .stop w => w = .blocked := by
    by_cases hc : b.length + s.pending.length > s.capacity
    · rw [if_pos hc]
      have := flush_whole s h
      cases hf : flush s with
      | ok s' =>
        rw [hf] at this
        obtain ⟨h1, h2, h3, h4, h5⟩ := this
        exact ⟨h1, by rw [h2, h3]; simp, h4, fun _ => h3⟩
      | err e s' =>
        rw [hf] at this
        obtain ⟨h1, h2, h3, h4, h5⟩ := this
        exact ⟨h1, by rw [h2, h3], h4⟩
      | stop w => rw [hf] at this; exact this
    · rw [if_neg hc]
      exact ⟨h, rfl, rfl, fun hb => by omega⟩
  revert hpre
  generalize (if b.length + s.pending.length > s.capacity then flush s else .ok s) = o
  intro hpre
  cases o with
  | stop w => exact hpre
  | err e s' => exact hpre
  | ok s1 =>
    obtain ⟨h1, h2, h3, h4⟩ := hpre
    simp only [Outcome.andThen]
    by_cases hb : b.length > s1.capacity
    · rw [if_pos hb]
      have hw := writeData_whole b s1.os s1.dev h1
      have hp := h4 hb
      rw [hp, List.append_nil] at h2
      cases hd : writeData b s1.os 0 s1.dev with
      | blocked => rfl
      | done n os dev r =>
        rw [hd] at hw
        cases r with
        | none =>
          refine ⟨hw.1, ?_, ?_⟩
          · simp [hw.2.2, hp, h2]
          · simp [h3]
        | some e =>
          refine ⟨hw.1, ?_, h3⟩
          simp [hw.2.2, hp, h2]
    · rw [if_neg hb]
      refine ⟨h1, ?_, ?_⟩
      · simp only [← List.append_assoc, h2]
      · simp [h3]

theorem delivered_inv (env : WEnv) : Inv4 env (Delivered env) where
  attrs _ _ _ _ h := h
  expand c ps f s hf h := by
    unfold expand
    rcases hg : f ps with ⟨b, good⟩
    dsimp only
    cases good
    · refine Always.err ⟨h.1, ?_⟩
      rw [← List.append_assoc, h.2]
      simp only [Bool.false_eq_true, if_false]
      rw [logBytes_snoc]
      rfl
    · refine Always.ok ⟨h.1, ?_⟩
      rw [← List.append_assoc, h.2]
      simp only [if_true]
      rw [logBytes_snoc]
      simp [outBytes, hf, hg]
  flush s h := by
    have := flush_whole s h.1
    cases hf : flush s with
    | ok s' =>
      rw [hf] at this
      obtain ⟨h1, h2, h3, h4, _⟩ := this
      exact Always.ok ⟨h1, by rw [h2, h3, h4, List.append_nil, h.2]⟩
    | err e s' =>
      rw [hf] at this
      obtain ⟨h1, h2, h3, h4, _⟩ := this
      exact Always.err ⟨h1, by rw [h2, h3, h4, h.2]⟩
    | stop w => exact Always.stop
  write b s h := by
    have := writeBytes_whole b s h.1
    cases hf : writeBytes b s with
    | ok s' =>
      rw [hf] at this
      obtain ⟨h1, h2, h3⟩ := this
      exact Always.ok ⟨h1, by rw [h2, h3, logBytes_snoc, h.2]; rfl⟩
    | err e s' =>
      rw [hf] at this
      obtain ⟨h1, h2, h3⟩ := this
      exact Always.err ⟨h1, by rw [h2, h3, h.2]⟩
    | stop w => exact Always.stop

/-- Whatever the operating system does, `write_data` reports success only after exactly the right
count. -/
theorem writeData_ok (buf : Bytes) : ∀ (os : List WriteRes) (off : Nat) (dev : Bytes) (n : Nat)
    (os' : List WriteRes) (dev' : Bytes),
    writeData buf os off dev = .done n os' dev' none → n = buf.length := by
  intro os
  induction os with
  | nil =>
    intro off dev n os' dev' h
    unfold writeData at h
    split at h
    · rename_i e; cases h; exact e
    · cases h
  | cons r os ih =>
    intro off dev n os' dev' h
    unfold writeData at h
    split at h
    · rename_i e; cases h; exact e
    · cases r with
      | all => exact ih _ _ _ _ _ h
      | wrote k =>
        dsimp only at h
        split at h
        · cases h
        · exact ih _ _ _ _ _ h
      | eintr => exact ih _ _ _ _ _ h
      | fail => cases h

/-- Once the count has passed the length, success is never reported. -/
theorem writeData_past (buf : Bytes) : ∀ (os : List WriteRes) (off : Nat) (dev : Bytes),
    off > buf.length → ∀ n os' dev', writeData buf os off dev ≠ .done n os' dev' none := by
  intro os
  induction os with
  | nil =>
    intro off dev h n os' dev' e
    unfold writeData at e
    rw [if_neg (by omega)] at e
    cases e
  | cons r os ih =>
    intro off dev h n os' dev' e
    unfold writeData at e
    rw [if_neg (by omega)] at e
    cases r with
    | all => exact ih _ _ (by omega) _ _ _ e
    | wrote k =>
      dsimp only at e
      split at e
      · cases e
      · exact ih _ _ (by omega) _ _ _ e
    | eintr => exact ih _ _ h _ _ _ e
    | fail => cases e

end Mortal
