import Verif.Spec.Several
import Verif.Props.SignalFate
import Verif.Lemmas.Prepare
import Verif.Lemmas.Unix

/-! # Lemmas on several terminals -/

namespace Mortal
open Spec

theorem on_run {env : Nat → REnv} {held held' : List PrepareState} {p p' : Proc} {i k : Nat} {op : UOp}
    {rs : List (Nat × URet)} (h : PStep.run env held p (.on i op k) = some (rs, held', p')) :
    ∃ st st' r s, UOp.run (env i) st (p.view i) op = some (r, st', s) ∧ rs = [(i, r)] ∧
      p' = p.put i s := by
  have key : ∀ st (f : List PrepareState → List PrepareState),
      ((UOp.run (env i) st (p.view i) op).map fun (r, st, s) => ([(i, r)], f st, p.put i s)) =
        some (rs, held', p') →
      ∃ st st' r s, UOp.run (env i) st (p.view i) op = some (r, st', s) ∧ rs = [(i, r)] ∧
        p' = p.put i s := by
    intro st f he
    cases hr : UOp.run (env i) st (p.view i) op with
    | none => rw [hr] at he; cases he
    | some x =>
      obtain ⟨r, st', s⟩ := x
      rw [hr] at he
      cases he
      exact ⟨st, st', r, s, hr, rfl, rfl⟩
  cases op with
  | restore => exact key _ (fun st => st ++ held.eraseIdx k) h
  | prepare cfg => exact key _ (fun st => st ++ held) h
  | waitEvent t => exact key _ (fun st => st ++ held) h
  | readEvent t => exact key _ (fun st => st ++ held) h
  | readRaw n t => exact key _ (fun st => st ++ held) h
  | write o => exact key _ (fun st => st ++ held) h

/-! ## Terminals stay on their devices -/

theorem put_tty (p : Proc) (i : Nat) (s : US) (j : Nat) : ((p.put i s).term j).tty = (p.term j).tty := by
  show (if j = i then _ else p.term j : TermU).tty = _
  split
  · rename_i h; rw [h]
  · rfl

theorem put_dev_other (p : Proc) (i : Nat) (s : US) (k : Nat) (h : k ≠ (p.term i).tty) :
    (p.put i s).tty k = p.tty k := if_neg h

theorem put_dev_own (p : Proc) (i : Nat) (s : US) :
    (p.put i s).tty (p.term i).tty = ⟨s.tio, s.size, s.input, s.received⟩ := if_pos rfl

theorem put_term_other (p : Proc) (i : Nat) (s : US) (j : Nat) (h : j ≠ i) :
    (p.put i s).term j = p.term j := if_neg h

theorem put_term_own (p : Proc) (i : Nat) (s : US) :
    (p.put i s).term i = ⟨(p.term i).tty, s.inBuf, s.report, s.resume, s.w⟩ := if_pos rfl

/-- The state that a call has left is what the next call on the same terminal finds. -/
theorem view_put (p : Proc) (i : Nat) (s : US) : (p.put i s).view i = s := by
  unfold Proc.view
  rw [put_term_own]
  dsimp only
  rw [put_dev_own]
  rfl

theorem step_tty {env : Nat → REnv} {held held' : List PrepareState} {p p' : Proc} {x : PStep}
    {rs : List (Nat × URet)} (h : x.run env held p = some (rs, held', p')) (j : Nat) :
    (p'.term j).tty = (p.term j).tty := by
  cases x with
  | on i op k => obtain ⟨_, _, _, _, _, _, rfl⟩ := on_run h; exact put_tty _ _ _ _
  | outside i size sigs => cases h; exact put_tty _ _ _ _

/-! ## Signals -/

theorem deliverAll_rest (l : List Sig) : ∀ s : US, (deliverAll s l).tio = s.tio ∧
    (deliverAll s l).act = s.act ∧ (deliverAll s l).inBuf = s.inBuf ∧
    (deliverAll s l).resume = s.resume ∧ (deliverAll s l).input = s.input ∧
    (deliverAll s l).received = s.received := by
  induction l with
  | nil => intro s; exact ⟨rfl, rfl, rfl, rfl, rfl, rfl⟩
  | cons g l ih =>
    intro s
    show (deliverAll (deliver s g) l).tio = _ ∧ (deliverAll (deliver s g) l).act = _ ∧
      (deliverAll (deliver s g) l).inBuf = _ ∧ (deliverAll (deliver s g) l).resume = _ ∧
      (deliverAll (deliver s g) l).input = _ ∧ (deliverAll (deliver s g) l).received = _
    obtain ⟨h1, h2, h3, h4, h5, h6⟩ := ih (deliver s g)
    rw [h1, h2, h3, h4, h5, h6]
    unfold deliver
    split <;> exact ⟨rfl, rfl, rfl, rfl, rfl, rfl⟩

theorem outside_sig (p : Proc) (i : Nat) (size : Option Size) (sigs : List Sig) :
    (p.outside i size sigs).seen = p.seen ++ handled p.act sigs ∧
      procPending (p.outside i size sigs) = latest (handled p.act sigs) (procPending p) := by
  obtain ⟨x, h1, h2⟩ := deliverAll_form sigs { p.view i with size := size.getD (p.view i).size }
  refine ⟨?_, h2⟩
  show (deliverAll _ sigs).seen = _
  rw [h1]
  rfl

/-- One step of a program, as arrivals at one place and takings from it. -/
theorem step_place {env : Nat → REnv} {K : Nat → PMap SeqData} (hm : ∀ i, Table (env i).seqs (K i))
    {held held' : List PrepareState} {p p' : Proc} {x : PStep} {rs : List (Nat × URet)}
    (h : x.run env held p = some (rs, held', p')) :
    ∃ l, p'.seen = p.seen ++ arrivals l ∧ OnePlace (procPending p) l (procPending p') ∧
      (sigTakes l).Sublist (rs.map Prod.snd) ∧
      (rs.map Prod.snd).filterMap reportedSig = (sigTakes l).filterMap reportedSig := by
  cases x with
  | on i op k =>
    obtain ⟨st, st', r, s, h1, rfl, rfl⟩ := on_run h
    obtain ⟨l, a, o, t⟩ := sigCall_place (run_sig (hm i) h1)
    refine ⟨l, a, o, ?_, ?_⟩
    · rcases t with t | ⟨t, _⟩ <;> rw [t] <;> simp
    · rcases t with t | ⟨t, h0⟩
      · rw [t]; rfl
      · rw [t]; show [r].filterMap reportedSig = []; simp [h0]
  | outside i size sigs =>
    cases h
    obtain ⟨h1, h2⟩ := outside_sig p i size sigs
    refine ⟨(handled p.act sigs).map .arrive, by rw [arrivals_map, h1], ?_, ?_, ?_⟩
    · rw [h2]; exact onePlace_arrivals _ _
    · rw [sigTakes_map]; exact List.nil_sublist _
    · rw [sigTakes_map]; rfl

/-! ## Bytes -/

theorem gotBy_append (f : Nat → Bool) (l l' : List Share) : gotBy f (l ++ l') = gotBy f l ++ gotBy f l' := by
  simp [gotBy]

theorem usedBy_append (i : Nat) (l l' : List Share) : usedBy i (l ++ l') = usedBy i l ++ usedBy i l' := by
  simp [usedBy]

/-- One step of a program: which bytes it takes from its device, and what it makes of them. -/
theorem step_shares {env : Nat → REnv} {K : Nat → PMap SeqData} (hm : ∀ i, Table (env i).seqs (K i))
    {held held' : List PrepareState} {p p' : Proc} {x : PStep} {rs : List (Nat × URet)}
    (h : x.run env held p = some (rs, held', p')) :
    ∃ l : List Share, rs = l.map (fun x => (x.term, x.res)) ∧ (∀ x ∈ l, Uses (K x.term) x.res x.used) ∧
      (∀ d, (p'.tty d).received = (p.tty d).received ++ gotBy (fun i => (p.term i).tty == d) l ∧
        (p.tty d).input = gotBy (fun i => (p.term i).tty == d) l ++ (p'.tty d).input) ∧
      ∀ i, (p.term i).inBuf ++ gotBy (· == i) l = usedBy i l ++ (p'.term i).inBuf := by
  cases x with
  | on i op k =>
    obtain ⟨st, st', r, s, h1, rfl, rfl⟩ := on_run h
    obtain ⟨b, got, k1, k2, k3, k4⟩ := run_flow (hm i) h1
    refine ⟨[⟨i, r, got, b⟩], rfl, ?_, ?_, ?_⟩
    · intro x hx
      rw [List.mem_singleton] at hx
      subst hx
      exact k1
    · intro d
      by_cases hd : d = (p.term i).tty
      · subst hd
        rw [put_dev_own]
        have : gotBy (fun j => (p.term j).tty == (p.term i).tty) [⟨i, r, got, b⟩] = got := by simp [gotBy]
        rw [this]
        exact ⟨k2, k3⟩
      · rw [put_dev_other _ _ _ _ hd]
        have : gotBy (fun j => (p.term j).tty == d) [⟨i, r, got, b⟩] = [] := by
          have : ((p.term i).tty == d) = false := by simpa using fun h => hd h.symm
          simp [gotBy, this]
        rw [this]
        simp
    · intro j
      by_cases hj : j = i
      · subst hj
        rw [put_term_own]
        have h1 : gotBy (· == j) [⟨j, r, got, b⟩] = got := by simp [gotBy]
        have h2 : usedBy j [⟨j, r, got, b⟩] = b := by simp [usedBy]
        rw [h1, h2]
        exact k4
      · rw [put_term_other _ _ _ _ hj]
        have hb : (i == j) = false := by simpa using fun h => hj h.symm
        have h1 : gotBy (· == j) [⟨i, r, got, b⟩] = [] := by simp [gotBy, hb]
        have h2 : usedBy j [⟨i, r, got, b⟩] = [] := by simp [usedBy, hb]
        rw [h1, h2]
        simp
  | outside i size sigs =>
    cases h
    obtain ⟨h1, h2, h3, h4, h5, h6⟩ :=
      deliverAll_rest sigs { p.view i with size := size.getD (p.view i).size }
    refine ⟨[], rfl, fun _ h => (List.not_mem_nil h).elim, ?_, ?_⟩
    · intro d
      show (Proc.tty (p.put i _) d).received = _ ++ [] ∧ _ = [] ++ (Proc.tty (p.put i _) d).input
      by_cases hd : d = (p.term i).tty
      · subst hd
        rw [put_dev_own]
        exact ⟨(h6.trans (List.append_nil _).symm), h5.symm⟩
      · rw [put_dev_other _ _ _ _ hd]
        simp
    · intro j
      show _ ++ [] = [] ++ (Proc.term (p.put i _) j).inBuf
      by_cases hj : j = i
      · subst hj
        rw [put_term_own]
        exact (List.append_nil _).trans h3.symm
      · rw [put_term_other _ _ _ _ hj]
        simp

/-! ## Nested use -/

theorem HandlersIn.view {p : Proc} (h : HandlersIn p) (i : Nat) : Coherent (p.view i) :=
  fun cfg hc g hg => h i cfg hc g hg

/-- A call that leaves handlers and configuration. -/
theorem HandlersIn.put {p : Proc} (h : HandlersIn p) {i : Nat} {s : US} (h1 : s.act = p.act)
    (h2 : s.resume = (p.term i).resume) : HandlersIn (p.put i s) := by
  intro j cfg hc g hg
  show s.act.get g = .ours
  rw [h1]
  by_cases hj : j = i
  · subst hj
    rw [put_term_own] at hc
    exact h j cfg (h2 ▸ hc) g hg
  · rw [put_term_other _ _ _ _ hj] at hc
    exact h j cfg hc g hg

/-- Preparing one terminal leaves the others their handlers. -/
theorem HandlersIn.prepared {env : REnv} {p : Proc} (h : HandlersIn p) {i : Nat} {cfg : PrepareConfig}
    {st : PrepareState} {s : US} (hp : prepare env cfg (p.view i) = .ok st s) : HandlersIn (p.put i s) := by
  intro j c hc g hg
  by_cases hj : j = i
  · subst hj
    rw [put_term_own] at hc
    exact coherent_prepared hp c hc g hg
  · rw [put_term_other _ _ _ _ hj] at hc
    have h0 := h j c hc g hg
    show s.act.get g = .ours
    rw [core_act (prepare_ok hp).1]
    show (preparedAct cfg p.act).get g = .ours
    by_cases hg' : HandledUnder cfg g
    · exact (preparedAct_get cfg _ g).1 hg'
    · rw [(preparedAct_get cfg _ g).2 hg']; exact h0

/-- What nested use leaves as it was. -/
structure PStays (p q : Proc) : Prop where
  act : q.act = p.act
  resume : ∀ j, (q.term j).resume = (p.term j).resume
  dev : ∀ j, (q.term j).tty = (p.term j).tty
  tio : ∀ d, (∀ j, (p.term j).tty = d → (p.term j).resume = none) → (q.tty d).tio = (p.tty d).tio

theorem PStays.refl (p : Proc) : PStays p p := ⟨rfl, fun _ => rfl, fun _ => rfl, fun _ _ => rfl⟩

theorem PStays.trans {p q r : Proc} (h1 : PStays p q) (h2 : PStays q r) : PStays p r where
  act := h2.act.trans h1.act
  resume j := (h2.resume j).trans (h1.resume j)
  dev j := (h2.dev j).trans (h1.dev j)
  tio d hd := (h2.tio d fun j hj => (h1.resume j).trans (hd j ((h1.dev j).symm.trans hj))).trans (h1.tio d hd)

theorem PStays.handlers {p q : Proc} (h : PStays p q) (hp : HandlersIn p) : HandlersIn q := by
  intro j cfg hc g hg
  rw [h.act]
  exact hp j cfg (h.resume j ▸ hc) g hg

/-- A call that leaves handlers and configuration, and the modes of an unprepared terminal. -/
theorem PStays.put {p : Proc} {i : Nat} {s : US} (h1 : s.act = p.act)
    (h2 : s.resume = (p.term i).resume)
    (h3 : (p.term i).resume = none → s.tio = (p.tty (p.term i).tty).tio) : PStays p (p.put i s) where
  act := h1
  resume j := by
    by_cases hj : j = i
    · subst hj; rw [put_term_own]; exact h2
    · rw [put_term_other _ _ _ _ hj]
  dev j := put_tty _ _ _ _
  tio d hd := by
    by_cases he : d = (p.term i).tty
    · subst he; rw [put_dev_own]; exact h3 (hd i rfl)
    · rw [put_dev_other _ _ _ _ he]

theorem pstays_outside (p : Proc) (i : Nat) (size : Option Size) (sigs : List Sig) :
    PStays p (p.outside i size sigs) := by
  obtain ⟨h1, h2, h3, h4, h5, h6⟩ :=
    deliverAll_rest sigs { p.view i with size := size.getD (p.view i).size }
  exact PStays.put h2 h4 fun _ => h1

/-- A pair of `prepare` and `restore` around something that leaves the handlers. -/
theorem pstays_nest {env : REnv} {p p1 : Proc} {i : Nat} {cfg : PrepareConfig} {st : PrepareState}
    {s s' : US} (h1 : prepare env cfg (p.view i) = .ok st s) (h2 : PStays (p.put i s) p1)
    (h3 : restore env st (p1.view i) = .ok () s') :
    PStays p (p1.put i s') ∧ (Proc.tty (p1.put i s') (p.term i).tty).tio = (p.tty (p.term i).tty).tio := by
  obtain ⟨e1, e2, e3⟩ := balanced_nest h1 (show (p1.view i).act = s.act from h2.act) h3
  have hdev : ∀ j, (p1.term j).tty = (p.term j).tty := fun j => (h2.dev j).trans (put_tty _ _ _ _)
  have own : (Proc.tty (p1.put i s') (p.term i).tty).tio = (p.tty (p.term i).tty).tio := by
    rw [← hdev i, put_dev_own, hdev i]
    exact e1
  refine ⟨⟨e2, ?_, ?_, ?_⟩, own⟩
  · intro j
    by_cases hj : j = i
    · subst hj; rw [put_term_own]; exact e3
    · rw [put_term_other _ _ _ _ hj, h2.resume j, put_term_other _ _ _ _ hj]
  · intro j
    rw [put_tty, hdev]
  · intro d hd
    by_cases he : d = (p.term i).tty
    · rw [he]; exact own
    · rw [put_dev_other _ _ _ _ (by rw [hdev]; exact he), h2.tio d ?_, put_dev_other _ _ _ _ he]
      intro j hj
      rw [put_tty] at hj
      have hji : j ≠ i := fun hji => he (by rw [← hj, hji])
      rw [put_term_other _ _ _ _ hji]
      exact hd j hj

theorem pbalanced_stays {env : Nat → REnv} {p q : Proc} (h : PBalanced env p q) :
    HandlersIn p → PStays p q := by
  induction h with
  | done p => exact fun _ => .refl p
  | @outside p q i size sigs _ ih =>
    intro hp
    have h1 := pstays_outside p i size sigs
    exact h1.trans (ih (h1.handlers hp))
  | @call p q i op s r st hp hr _ ih =>
    intro hh
    obtain ⟨e1, e2⟩ := stays_call hp hr (Mortal.HandlersIn.view hh i)
    have h1 : PStays p (p.put i s) := PStays.put e1 e2 fun h0 => (idle_call hp hr h0).1
    exact h1.trans (ih (h1.handlers hh))
  | @nest p p1 q i cfg st s s' h1 _ h3 _ ih1 ih2 =>
    intro hh
    have h4 := (pstays_nest h1 (ih1 (Mortal.HandlersIn.prepared hh h1)) h3).1
    exact h4.trans (ih2 (h4.handlers hh))

/-! ## Use that is not nested -/

/-- The handlers after a `restore`, whatever they were just before it. -/
theorem restored_get (env : REnv) (cfg : PrepareConfig) (c c' : Core) (g : Sig) :
    (HandledUnder cfg g → (restoredCore env (savedState env cfg c) c').act.get g = c.act.get g) ∧
    (¬ HandledUnder cfg g → (restoredCore env (savedState env cfg c) c').act.get g = c'.act.get g) := by
  unfold HandledUnder restoredCore savedState putBack
  cases h1 : cfg.reportSignals.contains .interrupt <;>
  cases h2 : cfg.reportSignals.contains .suspend <;>
  cases h3 : cfg.reportSignals.contains .quit <;>
  cases g <;> simp [SigTab.set, SigTab.get]

end Mortal
