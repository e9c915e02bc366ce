import Verif.Lemmas.Several
import Verif.Props.Prepare

/-! # C79: several terminals of one program -/

namespace Mortal
open Spec

/-- **C79.** However many terminals a program has and whatever it does with them: the process is one
place for a signal. There is an order of the arrivals and of the calls, on all the terminals
together, that take a signal, in which every call that takes one takes the signal that arrived last
before it and since the one before. All reports, on whichever terminal, come from such calls. -/
theorem C79_one_place (env : Nat → REnv) (K : Nat → PMap SeqData)
    (hm : ∀ i, Table (env i).seqs (K i)) (xs : List PStep) :
    ∀ (held held' : List PrepareState) (p p' : Proc) (rs : List (Nat × URet)),
      runP env xs held p = some (rs, held', p') →
      ∃ l, p'.seen = p.seen ++ arrivals l ∧ OnePlace (procPending p) l (procPending p') ∧
        (sigTakes l).Sublist (rs.map Prod.snd) ∧
        (rs.map Prod.snd).filterMap reportedSig = (sigTakes l).filterMap reportedSig := by
  induction xs with
  | nil =>
    intro held held' p p' rs h
    cases h
    exact ⟨[], by simp [arrivals], rfl, by simp [sigTakes], rfl⟩
  | cons x xs ih =>
    intro held held' p p' rs h
    unfold runP at h
    simp only [Option.bind_eq_bind, Option.bind_eq_some_iff, Option.pure_def,
      Option.some.injEq, Prod.mk.injEq] at h
    obtain ⟨⟨r, held1, p1⟩, h1, ⟨rs1, held2, p2⟩, h2, h3, h4, h5⟩ := h
    dsimp only at h2 h3 h4 h5
    subst h3 h4 h5
    obtain ⟨l1, a1, o1, t1, f1⟩ := step_place hm h1
    obtain ⟨l2, a2, o2, t2, f2⟩ := ih _ _ _ _ _ h2
    refine ⟨l1 ++ l2, by rw [a2, a1, arrivals_append, List.append_assoc],
      onePlace_append.2 ⟨_, o1, o2⟩, ?_, ?_⟩
    · rw [sigTakes_append, List.map_append]; exact t1.append t2
    · rw [sigTakes_append, List.map_append, List.filterMap_append, List.filterMap_append, f1, f2]

/-- What is taken from one place was put there before. -/
theorem onePlace_reports {l : List SigItem} : ∀ {o o' : Option Sig}, OnePlace o l o' →
    ((sigTakes l).filterMap reportedSig ++ o'.toList.map Sig.signal).Sublist
      ((o.toList ++ arrivals l).map Sig.signal) := by
  induction l with
  | nil => intro o o' h; cases h; simp [sigTakes, arrivals]
  | cons x l ih =>
    intro o o' h
    cases x with
    | arrive g =>
      refine (ih h).trans (List.Sublist.map _ ?_)
      exact List.sublist_append_right o.toList (g :: arrivals l)
    | take r =>
      obtain ⟨g, rfl, ha, h⟩ := h
      show ((r :: sigTakes l).filterMap reportedSig ++ _).Sublist ((g :: arrivals l).map Sig.signal)
      have h1 := ih h
      rcases ha with ha | ⟨e, rfl⟩ | ⟨rfl, _⟩
      · rw [List.filterMap_cons_some ha]
        exact h1.cons_cons _
      · exact h1.cons _
      · exact h1.cons _

/-- **C79.** So each signal is reported at most once, by one of the terminals, none is invented, and
all the reports together are in the order of arrival. -/
theorem C79_told_once (env : Nat → REnv) (K : Nat → PMap SeqData)
    (hm : ∀ i, Table (env i).seqs (K i)) (xs : List PStep) (held held' : List PrepareState)
    (p p' : Proc) (rs : List (Nat × URet)) (h : runP env xs held p = some (rs, held', p')) :
    ∃ new, p'.seen = p.seen ++ new ∧
      ((rs.map Prod.snd).filterMap reportedSig ++ (procPending p').toList.map Sig.signal).Sublist
        (((procPending p).toList ++ new).map Sig.signal) := by
  obtain ⟨l, h1, h2, _, h4⟩ := C79_one_place env K hm xs held held' p p' rs h
  exact ⟨arrivals l, h1, by rw [h4]; exact onePlace_reports h2⟩

/-- **C79.** Once a signal has been taken by one terminal, no terminal reports any before another
one arrives. -/
theorem C79_no_other_told (env : Nat → REnv) (K : Nat → PMap SeqData)
    (hm : ∀ i, Table (env i).seqs (K i)) (xs : List PStep) (held held' : List PrepareState)
    (p p' : Proc) (rs : List (Nat × URet)) (h : runP env xs held p = some (rs, held', p'))
    (h0 : procPending p = none) (hn : p'.seen = p.seen) :
    ∀ x ∈ rs, reportedSig x.2 = none := by
  obtain ⟨new, h1, h2⟩ := C79_told_once env K hm xs held held' p p' rs h
  have : new = [] := by rw [hn] at h1; simpa using h1
  subst this
  rw [h0] at h2
  have h3 := List.eq_nil_of_sublist_nil h2
  have h4 : (rs.map Prod.snd).filterMap reportedSig = [] := (List.append_eq_nil_iff.1 h3).1
  intro x hx
  exact List.filterMap_eq_nil_iff.1 h4 x.2 (List.mem_map_of_mem hx)

/-- **C79.** Every byte typed at a device goes to exactly one call on one of the terminals that are
on it, in the order typed; and what each terminal makes of its bytes uses every one of them once and
in order, as its results say (`Uses`), whatever is done with the other terminals. -/
theorem C79_each_byte_once (env : Nat → REnv) (K : Nat → PMap SeqData)
    (hm : ∀ i, Table (env i).seqs (K i)) (xs : List PStep) :
    ∀ (held held' : List PrepareState) (p p' : Proc) (rs : List (Nat × URet)),
      runP env xs held p = some (rs, held', p') →
      ∃ l : List Share, rs = l.map (fun x => (x.term, x.res)) ∧
        (∀ x ∈ l, Uses (K x.term) x.res x.used) ∧
        (∀ d, (p'.tty d).received = (p.tty d).received ++ gotBy (fun i => (p.term i).tty == d) l ∧
          (p.tty d).input = gotBy (fun i => (p.term i).tty == d) l ++ (p'.tty d).input) ∧
        ∀ i, (p.term i).inBuf ++ gotBy (· == i) l = usedBy i l ++ (p'.term i).inBuf := by
  induction xs with
  | nil =>
    intro held held' p p' rs h
    cases h
    exact ⟨[], rfl, fun _ h => (List.not_mem_nil h).elim, fun d => by simp [gotBy],
      fun i => by simp [gotBy, usedBy]⟩
  | cons x xs ih =>
    intro held held' p p' rs h
    unfold runP at h
    simp only [Option.bind_eq_bind, Option.bind_eq_some_iff, Option.pure_def,
      Option.some.injEq, Prod.mk.injEq] at h
    obtain ⟨⟨r, held1, p1⟩, h1, ⟨rs1, held2, p2⟩, h2, h3, h4, h5⟩ := h
    dsimp only at h2 h3 h4 h5
    subst h3 h4 h5
    obtain ⟨l1, e1, u1, d1, t1⟩ := step_shares hm h1
    obtain ⟨l2, e2, u2, d2, t2⟩ := ih _ _ _ _ _ h2
    have hd : ∀ d, (fun i => (p1.term i).tty == d) = fun i => (p.term i).tty == d := fun d =>
      funext fun i => by rw [step_tty h1 i]
    refine ⟨l1 ++ l2, by rw [List.map_append, e1, e2], ?_, ?_, ?_⟩
    · intro y hy
      rcases List.mem_append.1 hy with hy | hy
      · exact u1 y hy
      · exact u2 y hy
    · intro d
      obtain ⟨k1, k2⟩ := d1 d
      obtain ⟨k3, k4⟩ := d2 d
      rw [hd] at k3 k4
      exact ⟨by rw [gotBy_append, k3, k1, List.append_assoc],
        by rw [gotBy_append, k2, k4, List.append_assoc]⟩
    · intro i
      rw [gotBy_append, usedBy_append, ← List.append_assoc, t1 i, List.append_assoc, t2 i,
        List.append_assoc]

/-- **C79.** Terminals have nothing in common but the process and the device: what is done with some of them
does nothing to the others and to devices none of them is on, and all results are the same whatever the
state of the others. -/
theorem C79_own (env : Nat → REnv) (J : Nat → Prop) (xs : List PStep) (hJ : ∀ x ∈ xs, J x.term) :
    ∀ (held held' : List PrepareState) (p q p' : Proc) (rs : List (Nat × URet)), SameForU J p q →
      runP env xs held p = some (rs, held', p') →
      OthersKept J p p' ∧ ∃ q', runP env xs held q = some (rs, held', q') ∧ SameForU J p' q' ∧
        OthersKept J q q' := by
  induction xs with
  | nil =>
    intro held held' p q p' rs h e
    cases e
    exact ⟨⟨fun _ _ => rfl, fun _ _ => rfl⟩, q, rfl, h, fun _ _ => rfl, fun _ _ => rfl⟩
  | cons x xs ih =>
    intro held held' p q p' rs h e
    have hi : J x.term := hJ x List.mem_cons_self
    generalize hx : x.term = i at hi
    have hv : q.view i = p.view i := by
      unfold Proc.view
      rw [← h.term i hi, h.act, h.last, h.sched, h.seen, h.waited]
      have := h.tty i hi
      rw [← h.term i hi] at this
      rw [this]
    have hput : ∀ s, SameForU J (p.put i s) (q.put i s) := fun s => by
      have ht : ∀ j, J j → (p.put i s).term j = (q.put i s).term j := fun j hj => by
        show (if j = i then _ else _) = if j = i then _ else _
        rw [← h.term i hi, ← h.term j hj]
      refine ⟨rfl, rfl, rfl, rfl, rfl, ht, fun j hj => ?_⟩
      have hd : ((p.put i s).term j).tty = (p.term j).tty := by
        show (if j = i then _ else _ : TermU).tty = _
        split
        · next e => rw [e]
        · rfl
      rw [← ht j hj, hd]
      show (if (p.term j).tty = (p.term i).tty then _ else p.tty _) =
        if (p.term j).tty = (q.term i).tty then _ else q.tty _
      have h2 := h.tty j hj
      rw [← h.term j hj] at h2
      rw [← h.term i hi, h2]
    have other : ∀ (p : Proc) (s : US), OthersKept J p (p.put i s) := fun p s =>
      ⟨fun j hj => if_neg fun (e : j = i) => hj (e ▸ hi), fun d hd => if_neg fun e => hd i hi e.symm⟩
    have chain : ∀ (p p1 : Proc) (s : US), OthersKept J (p.put i s) p1 → OthersKept J p p1 := by
      intro p p1 s h1
      refine ⟨fun j hj => (h1.1 j hj).trans ((other p s).1 j hj), fun d hd => ?_⟩
      refine (h1.2 d fun j hj => ?_).trans ((other p s).2 d hd)
      show (if j = i then _ else _ : TermU).tty ≠ d
      split
      · exact hd i hi
      · exact hd j hj
    simp only [runP, Option.bind_eq_bind, Option.bind_eq_some_iff] at e
    obtain ⟨⟨r1, held1, p1⟩, e1, ⟨r2, held2, p2⟩, e2, e3⟩ := e
    cases e3
    have step : ∃ s, p1 = p.put i s ∧ x.run env held q = some (r1, held1, q.put i s) := by
      cases x with
      | outside k size sigs =>
        cases (show k = i from hx)
        cases e1
        refine ⟨_, rfl, ?_⟩
        simp only [PStep.run, Proc.outside, hv]
      | on k op m =>
        cases (show k = i from hx)
        cases op <;>
        · simp only [PStep.run, Option.map_eq_some_iff, hv] at e1 ⊢
          obtain ⟨⟨r, st, s⟩, e1, e2⟩ := e1
          cases e2
          exact ⟨s, rfl, _, e1, rfl⟩
    obtain ⟨s, rfl, e3⟩ := step
    obtain ⟨a, q1, b1, b2, b3⟩ := ih (fun x hx => hJ x (List.mem_cons_of_mem _ hx)) _ _ _ _ _ _ (hput s) e2
    refine ⟨chain _ _ _ a, q1, ?_, b2, chain _ _ _ b3⟩
    simp only [runP, Option.bind_eq_bind, Option.bind_eq_some_iff]
    exact ⟨_, e3, _, b1, rfl⟩

/-- **C79 (partial).** If the terminals, taken together, are restored in the reverse of the order in
which they were prepared, with any other calls in between, then after each `restore` the handlers of
the process, the modes of the device and the configuration of every terminal are those before the
matching `prepare`.

Missing: restored in another order they are not (`C79_crossed`). -/
theorem C79_nested_partial (env : Nat → REnv) (p p1 : Proc) (i : Nat) (cfg : PrepareConfig)
    (st : PrepareState) (s s' : US) (hp : HandlersIn p)
    (h1 : prepare (env i) cfg (p.view i) = .ok st s) (h2 : PBalanced env (p.put i s) p1)
    (h3 : restore (env i) st (p1.view i) = .ok () s') :
    let q := p1.put i s'
    q.act = p.act ∧ (q.tty (p.term i).tty).tio = (p.tty (p.term i).tty).tio ∧
      ∀ j, (q.term j).resume = (p.term j).resume := by
  obtain ⟨h4, h5⟩ := pstays_nest h1 (pbalanced_stays h2 (Mortal.HandlersIn.prepared hp h1)) h3
  exact ⟨h4.act, h5, h4.resume⟩

/-- **C79 (partial).** A whole program of that kind, begun with no terminal prepared, leaves the
handlers and the modes of all devices as they were, and no terminal prepared. -/
theorem C79_history_partial (env : Nat → REnv) (p q : Proc) (h0 : ∀ j, (p.term j).resume = none)
    (h : PBalanced env p q) :
    q.act = p.act ∧ (∀ d, (q.tty d).tio = (p.tty d).tio) ∧ ∀ j, (q.term j).resume = none := by
  have h1 := pbalanced_stays h fun j cfg hc => by rw [h0 j] at hc; cases hc
  exact ⟨h1.act, fun d => h1.tio d fun j _ => h0 j, fun j => (h1.resume j).trans (h0 j)⟩

/-- **C79 (refuted part).** Two terminals restored in the order in which they were prepared, for all
terminals, configurations and handlers. When the first is restored, the signals it handles have the
handlers they had before everything, although the second is still prepared: from then on nothing
tells it of a change of size. When the second is restored, too, the signals that both handle are
left with the crate's handler, all others with the handler they had at first; and if both terminals
are on one device it is left in the modes of the first. -/
theorem C79_crossed (env : Nat → REnv) (p : Proc) (i j : Nat) (hij : j ≠ i) (a b : PrepareConfig)
    (sa sb : PrepareState) (s1 s2 s3 s4 : US)
    (h1 : prepare (env i) a (p.view i) = .ok sa s1)
    (h2 : prepare (env j) b ((p.put i s1).view j) = .ok sb s2)
    (h3 : restore (env i) sa (((p.put i s1).put j s2).view i) = .ok () s3)
    (h4 : restore (env j) sb ((((p.put i s1).put j s2).put i s3).view j) = .ok () s4) :
    let p3 := ((p.put i s1).put j s2).put i s3
    let p4 := p3.put j s4
    (p3.term j).resume = some b ∧ (∀ g, HandledUnder a g → p3.act.get g = p.act.get g) ∧
    (∀ g, (HandledUnder a g ∧ HandledUnder b g → p4.act.get g = .ours) ∧
      (¬ (HandledUnder a g ∧ HandledUnder b g) → p4.act.get g = p.act.get g)) ∧
    ((p.term j).tty = (p.term i).tty →
      ModesFor a (p.tty (p.term i).tty).tio (p4.tty (p.term i).tty).tio) := by
  intro p3 p4
  obtain ⟨e1, f1⟩ := prepare_ok h1
  obtain ⟨e2, f2⟩ := prepare_ok h2
  have e3 := restore_ok h3
  have e4 := restore_ok h4
  subst f1 f2
  have a1 : ∀ g, (HandledUnder a g → s1.act.get g = .ours) ∧
      (¬ HandledUnder a g → s1.act.get g = p.act.get g) := by
    intro g; rw [core_act e1]; exact preparedAct_get a _ g
  have a2 : ∀ g, (HandledUnder b g → s2.act.get g = .ours) ∧
      (¬ HandledUnder b g → s2.act.get g = s1.act.get g) := by
    intro g; rw [core_act e2]; exact preparedAct_get b _ g
  have a3 : ∀ g, (HandledUnder a g → s3.act.get g = p.act.get g) ∧
      (¬ HandledUnder a g → s3.act.get g = s2.act.get g) := by
    intro g; rw [core_act e3]; exact restored_get (env i) a (core (p.view i)) (core _) g
  have a4 : ∀ g, (HandledUnder b g → s4.act.get g = s1.act.get g) ∧
      (¬ HandledUnder b g → s4.act.get g = s3.act.get g) := by
    intro g; rw [core_act e4]; exact restored_get (env j) b (core ((p.put i s1).view j)) (core _) g
  refine ⟨?_, fun g => (a3 g).1, fun g => ⟨fun hg => ?_, fun hg => ?_⟩, fun ht => ?_⟩
  · show (Proc.term (((p.put i s1).put j s2).put i s3) j).resume = some b
    rw [put_term_other _ _ _ _ hij, put_term_own]
    exact core_resume e2
  · exact ((a4 g).1 hg.2).trans ((a1 g).1 hg.1)
  · show s4.act.get g = _
    by_cases hb : HandledUnder b g
    · exact ((a4 g).1 hb).trans ((a1 g).2 fun ha => hg ⟨ha, hb⟩)
    · rw [(a4 g).2 hb]
      by_cases ha : HandledUnder a g
      · exact (a3 g).1 ha
      · rw [(a3 g).2 ha, (a2 g).2 hb, (a1 g).2 ha]
  · have hd : (p3.term j).tty = (p.term i).tty := by
      rw [← ht]; show (Proc.term (((p.put i s1).put j s2).put i s3) j).tty = _
      rw [put_tty, put_tty, put_tty]
    show ModesFor a _ (Proc.tty (p3.put j s4) (p.term i).tty).tio
    rw [← hd, put_dev_own]
    show ModesFor a _ s4.tio
    have : s4.tio = preparedTio a (p.tty (p.term i).tty).tio := by
      rw [core_tio e4]
      show (Proc.tty (p.put i s1) ((p.put i s1).term j).tty).tio = _
      rw [put_tty, ht, put_dev_own]
      exact core_tio e1
    rw [this, hd]
    exact modes_for a _

/-! ## Concrete cases -/

/-- Two terminals on one device, as `Terminal::stdout` and `Terminal::stderr` are, in a window of
24 lines. -/
def twoTerms (n : Nat) (input : Bytes) : Proc where
  act := (easyUS 0).act
  last := 0
  sched := List.replicate n (okStep 1)
  seen := []
  waited := 0
  tty := fun _ => ⟨(easyUS 0).tio, ⟨24, 80⟩, input, []⟩
  term := fun _ => ⟨0, [], SignalSet.new, none, (easyUS 0).w⟩

/-- The steps of `C79_other_not_told`. -/
def twoSteps : List PStep :=
  [.on 0 (.prepare demoCfg) 0, .on 1 (.prepare demoCfg) 0, .outside 0 (some ⟨10, 20⟩) [.winch],
    .on 1 (.readEvent (some 0)) 0, .on 0 (.readEvent (some 0)) 0]

/-- **C79 (refuted part).** Both terminals are prepared, on one device. The window changes its size,
and the second terminal is read first: it is told. The first is never told. -/
theorem C79_other_not_told :
    (runP (fun _ => demoEnvR) twoSteps [] (twoTerms 40 [])).map (fun x => (x.1.drop 2, x.2.2.seen,
      procPending x.2.2)) =
    some ([(1, .event (some (.resize ⟨10, 20⟩))), (0, .event none)], [.winch], none) := by
  decide +kernel

/-- A program that meets the hypotheses of `C79_one_place`, `C79_told_once` and `C79_each_byte_once`:
both terminals read, each gets its own byte, and one of them is told of the signal. -/
example : Table demoEnvR.seqs demoK ∧
    (runP (fun _ => demoEnvR) [.on 0 (.prepare demoCfg) 0, .on 1 (.prepare demoCfg) 0,
      .on 0 (.readRaw 1 (some 0)) 0, .on 1 (.readEvent (some 0)) 0, .outside 1 none [.int],
      .on 0 (.readEvent (some 0)) 0, .on 1 .restore 0, .on 0 .restore 0] [] (twoTerms 60 [0x61, 0x62])).map
      (fun x => (x.1.drop 2, (x.2.2.tty 0).received, x.2.1.length)) =
    some ([(0, .raw [0x61]), (1, .event (some (.key (.char 'b')))),
      (0, .event (some (.signal .interrupt))), (1, .unit), (0, .unit)], [0x61, 0x62], 0) :=
  ⟨demoTable, by decide +kernel⟩

/-- `C79_own` for terminal 1: the processes differ in what terminal 0 has buffered, and in another device;
the calls succeed and read. -/
example : let p := twoTerms 60 [0x61, 0x62]
    let q := { p with
      tty := fun d => if d = 7 then ⟨(p.tty 0).tio, ⟨1, 1⟩, [], []⟩ else p.tty d
      term := fun i => if i = 0 then { p.term 0 with inBuf := [0xc3] } else p.term i }
    SameForU (· = 1) p q ∧ (p.term 0).inBuf ≠ (q.term 0).inBuf ∧
      (runP (fun _ => demoEnvR) [.on 1 (.readEvent (some 0)) 0, .on 1 (.readRaw 1 (some 0)) 0] [] p).map
        (fun x => x.1) = some [(1, .event (some (.key (.char 'a')))), (1, .raw [0x62])] :=
  ⟨⟨rfl, rfl, rfl, rfl, rfl, fun i hi => by cases hi; rfl, fun i hi => by cases hi; rfl⟩, by decide,
    by decide +kernel⟩

theorem okOf_some {α : Type} {r : Res α} {a : α} {s : US} (h : okOf r = some (a, s)) : r = .ok a s := by
  cases r <;> cases h
  rfl

/-- `prepare` on terminal `i` of the two. -/
def prep (i : Nat) (cfg : PrepareConfig) (p : Proc) : Option (PrepareState × Proc) :=
  (okOf (prepare demoEnvR cfg (p.view i))).map fun x => (x.1, p.put i x.2)

/-- `restore` on terminal `i` of the two. -/
def rest (i : Nat) (st : PrepareState) (p : Proc) : Option Proc :=
  (okOf (restore demoEnvR st (p.view i))).map fun x => p.put i x.2

theorem prep_some {i : Nat} {cfg : PrepareConfig} {p q : Proc} {st : PrepareState}
    (h : prep i cfg p = some (st, q)) :
    ∃ s, prepare demoEnvR cfg (p.view i) = .ok st s ∧ q = p.put i s := by
  obtain ⟨⟨a, s⟩, h1, h2⟩ := Option.map_eq_some_iff.1 h
  cases h2
  exact ⟨s, okOf_some h1, rfl⟩

theorem rest_some {i : Nat} {p q : Proc} {st : PrepareState} (h : rest i st p = some q) :
    ∃ s, restore demoEnvR st (p.view i) = .ok () s ∧ q = p.put i s := by
  obtain ⟨⟨a, s⟩, h1, h2⟩ := Option.map_eq_some_iff.1 h
  cases h2
  exact ⟨s, okOf_some h1, rfl⟩

/-- The hypotheses of `C79_crossed` are met by the two terminals, which are on one device; they were
not prepared, and the handler of SIGWINCH was another. So is the hypothesis of
`C79_history_partial`, by a program that prepares one terminal, prepares and restores the other with
a signal in between, and restores the first. -/
example : ∃ (sa sb : PrepareState) (s1 s2 s3 s4 : US) (q : Proc),
    let p := twoTerms 60 []
    let env : Nat → REnv := fun _ => demoEnvR
    (prepare (env 0) demoCfg (p.view 0) = .ok sa s1 ∧
      prepare (env 1) demoCfg ((p.put 0 s1).view 1) = .ok sb s2 ∧
      restore (env 0) sa (((p.put 0 s1).put 1 s2).view 0) = .ok () s3 ∧
      restore (env 1) sb ((((p.put 0 s1).put 1 s2).put 0 s3).view 1) = .ok () s4) ∧
    p.act.get .winch ≠ .ours ∧ (∀ j, (p.term j).resume = none) ∧ HandlersIn p ∧
    PBalanced env p q ∧ q.seen = [.winch] := by
  obtain ⟨⟨p4, q⟩, hq⟩ := Option.isSome_iff_exists.1 (show ((do
      let (sa, p1) ← prep 0 demoCfg (twoTerms 60 [])
      let (sb, p2) ← prep 1 demoCfg p1
      let p3 ← rest 0 sa p2
      let p4 ← rest 1 sb p3
      let q3 ← rest 1 sb (p2.outside 0 none [.winch])
      let q4 ← rest 0 sa q3
      if q4.seen = [.winch] then pure (p4, q4) else none : Option (Proc × Proc))).isSome = true by
    decide +kernel)
  simp only [Option.bind_eq_bind, Option.bind_eq_some_iff, Option.pure_def] at hq
  obtain ⟨⟨sa, p1⟩, h1, ⟨sb, p2⟩, h2, p3, h3, p4', h4, q3, h5, q4, h6, h7⟩ := hq
  dsimp only at h2 h3 h4 h5 h6
  obtain ⟨s1, k1, rfl⟩ := prep_some h1
  obtain ⟨s2, k2, rfl⟩ := prep_some h2
  obtain ⟨s3, k3, rfl⟩ := rest_some h3
  obtain ⟨s4, k4, rfl⟩ := rest_some h4
  obtain ⟨s5, k5, rfl⟩ := rest_some h5
  obtain ⟨s6, k6, rfl⟩ := rest_some h6
  split at h7
  · rename_i hs
    exact ⟨sa, sb, s1, s2, s3, s4, _, ⟨k1, k2, k3, k4⟩, by decide, fun _ => rfl,
      (by intro j cfg hc; cases hc),
      .nest k1 (.nest k2 (.outside 0 none [.winch] (.done _)) k5 (.done _)) k6 (.done _), hs⟩
  · cases h7

/-- C79: once the second terminal has been told, `C79_no_other_told` applies to the rest of
`C79_other_not_told`. -/
example : (runP (fun _ => demoEnvR) (twoSteps.take 4) [] (twoTerms 40 [])).any (fun x => decide
    (procPending x.2.2 = none ∧
      (runP (fun _ => demoEnvR) [.on 0 (.readEvent (some 0)) 0] x.2.1 x.2.2).any (fun y =>
        decide (y.2.2.seen = x.2.2.seen)) = true)) = true := by
  decide +kernel

end Mortal
