import Verif.Lemmas.WinSeveral
import Verif.Props.WinSignal
import Verif.Props.WinMode

/-! # C80: several terminals of one program on Windows -/

namespace Mortal
open Spec

theorem keptW_none {p : WProc} (h : p.last = noSignal) : keptW p = none := kept_none (s := p.view 0) h

/-- **C80.** Whatever calls are made on however many terminals, whether they succeed or fail, and
whenever control events arrive: the signals reported by all of them together are exactly accounted
for. A call on any terminal reports a signal only if that is the newest one handled and no terminal
has reported it; a handled signal is reported by one terminal, replaced by a newer one, or still kept. -/
theorem C80_accounted (ops : List (Nat × SigOp)) (p p' : WProc) (n : List (Nat × Note))
    (hs : p.last = noSignal) (h : sessionW ops p = some (n, p')) :
    ∃ q, account none (n.map Prod.snd) = some q := by
  have := sessionW_account ops p p' n h
  rw [keptW_none hs] at this
  exact ⟨_, this⟩

/-- The signals reported. -/
def toldW (n : List (Nat × Note)) : List Signal :=
  n.filterMap fun x => match x.2 with | .report s => some s | _ => none

/-- The signals of the control events that were handled. -/
def takenW (n : List (Nat × Note)) : List Signal :=
  n.filterMap fun x => match x.2 with | .ev (.ctrl t true _) => sigOfType t | _ => none

theorem told_sub (n : List (Nat × Note)) : ∀ (o q : Option Signal),
    account o (n.map Prod.snd) = some q → (toldW n ++ q.toList).Sublist (o.toList ++ takenW n) := by
  induction n with
  | nil => intro o q h; cases h; simp [toldW, takenW]
  | cons x n ih =>
    intro o q h
    obtain ⟨i, x⟩ := x
    cases x with
    | report s =>
      simp only [List.map_cons, account] at h
      split at h
      · next e =>
        subst e
        exact (ih none q h).cons_cons s
      · cases h
    | ev e =>
      cases e with
      | input r => exact ih o q h
      | call c a => exact ih o q h
      | ctrl t b w =>
        cases b
        · exact ih o q h
        · have h1 := ih _ q h
          refine h1.trans ?_
          refine List.Sublist.trans ?_ (List.sublist_append_right o.toList _)
          unfold takenW
          rw [List.filterMap_cons]
          dsimp only
          cases sigOfType t <;> exact List.Sublist.refl _

/-- **C80.** So each signal is reported at most once, by one of the terminals, none is invented, and
all the reports together are in the order in which the control events arrived. -/
theorem C80_told_once (ops : List (Nat × SigOp)) (p p' : WProc) (n : List (Nat × Note))
    (hs : p.last = noSignal) (h : sessionW ops p = some (n, p')) : (toldW n).Sublist (takenW n) := by
  obtain ⟨q, hq⟩ := C80_accounted ops p p' n hs h
  exact (List.sublist_append_left _ _).trans (told_sub n none q hq)

/-- **C80.** A signal that is kept is reported by the next call that reads, on whichever terminal,
also on one that has not asked for signals, or a newer one in its place: the call does not fail, it
does not wait, and after it no signal is kept, so that no other terminal is told. -/
theorem C80_immediate (ops : List (Nat × SigOp)) (p p' : WProc) (n : List (Nat × Note)) (sig : Signal)
    (i : Nat) (op : SigOp) (hs : p.last = noSignal) (h : sessionW ops p = some (n, p'))
    (hk : account none (n.map Prod.snd) = some (some sig)) (ho : op.IsRead) :
    (∀ e s, op.run (p'.term i).t (p'.view i) ≠ .err e s) ∧
    (2 ≤ p'.os.length → ∃ a s, op.run (p'.term i).t (p'.view i) = .ok a s) ∧
    ∀ a s, op.run (p'.term i).t (p'.view i) = .ok a s →
      (∀ e, .ev e ∈ between (p'.view i) s → NoWait e) ∧
      ∃ sig', account (some sig) (between (p'.view i) s) = some (some sig') ∧
        a = some (.signal sig') ∧
        account none (n.map Prod.snd ++ between (p'.view i) s ++ reportOf a) = some none := by
  refine reads_now _ op (?_ : keptW p' = some sig) ho hk
  have := sessionW_account ops p p' n h
  rw [keptW_none hs, hk] at this
  exact (Option.some.inj this).symm

/-- **C80.** Which control events are handled is decided by the latest `prepare` that asks for
signals, on whichever terminal: from then until the next `prepare` on any terminal, also after it has
been restored, an event is handled exactly if that `prepare` has asked for its signal, whatever other
terminals have asked for. -/
theorem C80_handled (i : Nat) (cfg : PrepareConfig) (ops : List (Nat × SigOp)) (p p' : WProc)
    (s : WinSt) (st : WinPrepared) (n : List (Nat × Note)) (hc : AsksCtrl cfg)
    (h : winPrepare (p.term i).t cfg (p.view i) = .ok st s) (hp : ∀ x ∈ ops, ¬ x.2.IsPrepare)
    (hs : sessionW ops (p.put i s) = some (n, p')) : ∀ x ∈ n, x.2.HandledBy cfg.reportSignals := by
  have h1 := ((prepare_notes _ cfg _).1 st s h).2 ((reports_iff cfg).mpr hc)
  rintro ⟨j, x⟩ hx
  cases x with
  | report r => trivial
  | ev e =>
    refine handledAs_set _ e ?_
    rw [← h1]
    exact sessionW_handled ops hp (p.put i s) p' n hs _ hx e rfl

theorem sameForW_view {J : Nat → Prop} {p q : WProc} (h : SameForW J p q) {i : Nat} (hi : J i) :
    q.view i = p.view i := by
  unfold WProc.view
  rw [h.term i hi, h.catchSet, h.last, h.os, h.log]

/-- **C80.** Terminals have nothing in common but the process and the console: calls on some of them do
nothing to the others, and all that these calls see and do is the same whatever the state of the others;
so is the result of every further call on one of them. -/
theorem C80_own (J : Nat → Prop) (ops : List (Nat × SigOp)) (hJ : ∀ x ∈ ops, J x.1) :
    ∀ (p q p' : WProc) (n : List (Nat × Note)), SameForW J p q → sessionW ops p = some (n, p') →
      (∀ j, ¬ J j → p'.term j = p.term j) ∧
      ∃ q', sessionW ops q = some (n, q') ∧ SameForW J p' q' ∧ (∀ j, ¬ J j → q'.term j = q.term j) ∧
        ∀ i, J i → ∀ op : SigOp, op.run (q'.term i).t (q'.view i) = op.run (p'.term i).t (p'.view i) := by
  induction ops with
  | nil => 
    intro p q p' n h e
    cases e
    exact ⟨fun _ _ => rfl, q, rfl, h, fun _ _ => rfl, fun i hi op => by rw [sameForW_view h hi, h.term i hi]⟩
  | cons x ops ih =>
    obtain ⟨i, op⟩ := x
    intro p q p' n h e
    have hi : J i := hJ (i, op) List.mem_cons_self
    have hv := sameForW_view h hi
    have ht : (q.term i).t = (p.term i).t := by rw [h.term i hi]
    have hput : ∀ s, SameForW J (p.put i s) (q.put i s) := fun s => by
      refine ⟨rfl, rfl, rfl, rfl, fun j hj => ?_⟩
      show (if j = i then _ else _) = if j = i then _ else _
      rw [ht, h.term j hj]
    have other : ∀ (p : WProc) (s : WinSt) j, ¬ J j → (p.put i s).term j = p.term j := fun p s j hj =>
      if_neg fun (e : j = i) => hj (e ▸ hi)
    simp only [sessionW] at e ⊢
    rw [hv, ht]
    cases hr : op.run (p.term i).t (p.view i) with
    | stop w => rw [hr] at e; cases e
    | ok r s =>
      rw [hr] at e
      simp only [Option.map_eq_some_iff] at e ⊢
      obtain ⟨⟨n1, p1⟩, e1, e2⟩ := e
      cases e2
      obtain ⟨a, q1, b1, b2, b3, b4⟩ := ih (fun x hx => hJ x (List.mem_cons_of_mem _ hx)) _ _ _ _ (hput s) e1
      exact ⟨fun j hj => (a j hj).trans (other p s j hj), q1, ⟨_, b1, rfl⟩, b2,
        fun j hj => (b3 j hj).trans (other q s j hj), b4⟩
    | err r s =>
      rw [hr] at e
      simp only [Option.map_eq_some_iff] at e ⊢
      obtain ⟨⟨n1, p1⟩, e1, e2⟩ := e
      cases e2
      obtain ⟨a, q1, b1, b2, b3, b4⟩ := ih (fun x hx => hJ x (List.mem_cons_of_mem _ hx)) _ _ _ _ (hput s) e1
      exact ⟨fun j hj => (a j hj).trans (other p s j hj), q1, ⟨_, b1, rfl⟩, b2,
        fun j hj => (b3 j hj).trans (other q s j hj), b4⟩

theorem usesW_nested (u : UEnv) (k : Nat) {ops : List UseW} (hn : NestedW ops) :
    ∀ (held held' : List HeldW) (p p' : WProc) (c : Con), (∀ j, (p.term j).t.inH = k) →
      runUsesW ops held p = some (held', p') →
      held' = held ∧ Moved u k p p' c (fun c' =>
        c'.inMode = (if ops = [] then c.inMode else c.inMode ||| 0x80) ∧
        c'.handlers = c.handlers ∧ SameOutput c c') := by
  induction hn with
  | nil =>
    intro held held' p p' c hk h
    cases h
    refine ⟨rfl, (Moved.refl u k p c).mono ?_⟩
    rintro c' rfl
    exact ⟨rfl, rfl, rfl, rfl⟩
  | @wrap i cfg a b _ _ iha ihb =>
    intro held held' p p' c hk h
    simp only [runUsesW] at h
    split at h
    case h_2 => cases h
    next st s e =>
    have m1 := prepare_moved u (hk i) e c
    rw [runUsesW_append, Option.bind_eq_some_iff] at h
    obtain ⟨⟨held1, p1⟩, h1, h2⟩ := h
    dsimp only at h2
    have hk1 : ∀ j, ((p.put i s).term j).t.inH = k := fun j => by rw [m1.t j]; exact hk j
    obtain ⟨rfl, -⟩ := iha _ _ _ _ demoCon hk1 h1
    obtain ⟨g1, t1⟩ := runUsesW_grows _ _ _ _ _ h1
    have hk2 : ∀ j, (p1.term j).t.inH = k := fun j => by rw [t1 j]; exact hk1 j
    simp only [runUsesW, List.getElem?_cons_zero, List.eraseIdx_zero, List.tail_cons] at h2
    split at h2
    case h_2 => cases h2
    next _ s2 e2 =>
    have m2 := fun c1 => restore_moved u (hk2 i) e2 c1
    have hk3 : ∀ j, ((p1.put i s2).term j).t.inH = k := fun j => by rw [(m2 demoCon).t j]; exact hk2 j
    obtain ⟨rfl, -⟩ := ihb _ _ _ _ demoCon hk3 h2
    obtain ⟨g3, t3⟩ := runUsesW_grows _ _ _ _ _ h2
    refine ⟨rfl, ?_⟩
    have g2 := (m2 demoCon).grows
    have ga : ∃ D, (p1.put i s2).log = (p.put i s).log ++ D := by
      obtain ⟨D1, d1⟩ := g1
      obtain ⟨D2, d2⟩ := g2
      exact ⟨D1 ++ D2, by rw [d2, d1, List.append_assoc]⟩
    have gb : ∃ D, p'.log = (p.put i s).log ++ D := by
      obtain ⟨D1, d1⟩ := ga
      obtain ⟨D2, d2⟩ := g3
      exact ⟨D1 ++ D2, by rw [d2, d1, List.append_assoc]⟩
    have ta : ∀ j, ((p1.put i s2).term j).t = ((p.put i s).term j).t := fun j =>
      ((m2 demoCon).t j).trans (t1 j)
    refine m1.trans ?_ gb fun j => (t3 j).trans (ta j)
    rintro c1 ⟨rfl, q, rfl⟩
    have m3 := ((iha _ _ _ _ { preparedCon cfg c with queue := q } hk1 h1).2).trans
      (R := fun c3 => c3.inMode = c.inMode ||| 0x80 ∧ c3.handlers = c.handlers ∧ SameOutput c c3)
      (fun c2 hc2 => (m2 c2).mono ?_) g2 (m2 demoCon).t
    · refine m3.trans ?_ g3 t3
      rintro c3 ⟨x1, x2, x3⟩
      refine ((ihb _ _ _ _ c3 hk3 h2).2).mono ?_
      rintro c4 ⟨y1, y2, y3⟩
      refine ⟨?_, y2.trans x2, y3.1.trans x3.1, y3.2.trans x3.2⟩
      rw [if_neg (by simp), y1, x1]
      split
      · rfl
      · exact ext_idem _
    · rintro c3 ⟨q3, rfl⟩
      obtain ⟨-, z2, z3⟩ := hc2
      refine ⟨rfl, ?_, z3.1, z3.2⟩
      show (if reports cfg then c2.handlers - 1 else c2.handlers) = _
      rw [z2]
      show (if reports cfg then (if reports cfg then c.handlers + 1 else c.handlers) - 1 else
        (if reports cfg then c.handlers + 1 else c.handlers)) = _
      cases reports cfg <;> rfl

/-- **C80 (partial).** If the terminals, taken together, are restored in the reverse of the order in
which they were prepared, the console is left as it was, apart from the extended-flags bit: input
mode, registrations of the control handler and all output settings, whatever else happens meanwhile.

Missing: restored in another order the mode is not (`C80_crossed`), and which signals are handled is
not put back (`C80_taken_away_refuted`). -/
theorem C80_nested_partial (u : UEnv) (k : Nat) (ops : List UseW) (hn : NestedW ops)
    (held held' : List HeldW) (p p' : WProc) (c : Con) (D : List WEv)
    (hk : ∀ j, (p.term j).t.inH = k) (h : runUsesW ops held p = some (held', p'))
    (hl : p'.log = p.log ++ D) (hr : c.Runs u k D) :
    ∃ c', c.play u k D = some c' ∧ held' = held ∧
      c'.inMode = (if ops = [] then c.inMode else c.inMode ||| 0x80) ∧
      c'.handlers = c.handlers ∧ SameOutput c c' := by
  obtain ⟨h1, h2⟩ := usesW_nested u k hn held held' p p' c hk h
  obtain ⟨c', h3, h4⟩ := h2.con D hl hr
  exact ⟨c', h3, h1, h4⟩

/-- Every state held was returned by a `prepare` for its configuration. -/
def HeldOk (held : List HeldW) : Prop := ∀ h ∈ held, h.st.clearHandler = reports h.cfg

theorem asking_cons (h : HeldW) (l : List HeldW) :
    asking (h :: l) = (if reports h.cfg then 1 else 0) + asking l := by
  unfold asking
  rw [List.filter_cons]
  by_cases e : AsksCtrl h.cfg
  · rw [if_pos (decide_eq_true e), if_pos ((reports_iff _).2 e), List.length_cons, Nat.add_comm]
  · rw [if_neg (by simpa using e), if_neg (fun x => e ((reports_iff _).1 x)), Nat.zero_add]

theorem asking_erase (l : List HeldW) : ∀ (k : Nat) (h : HeldW), l[k]? = some h →
    asking l = (if reports h.cfg then 1 else 0) + asking (l.eraseIdx k) := by
  induction l with
  | nil => intro k h e; simp at e
  | cons x l ih =>
    intro k h e
    cases k with
    | zero =>
      simp only [List.getElem?_cons_zero, Option.some.injEq] at e
      subst e
      exact asking_cons _ _
    | succ k =>
      rw [List.getElem?_cons_succ] at e
      rw [List.eraseIdx_cons_succ, asking_cons, asking_cons, ih k h e]
      omega

theorem usesW_handlers (u : UEnv) (k base : Nat) (ops : List UseW) :
    ∀ (held held' : List HeldW) (p p' : WProc) (c : Con), (∀ j, (p.term j).t.inH = k) →
      HeldOk held → c.handlers = base + asking held → runUsesW ops held p = some (held', p') →
      Moved u k p p' c (fun c' => c'.handlers = base + asking held' ∧ SameOutput c c') := by
  induction ops with
  | nil =>
    intro held held' p p' c hk hh hb h
    cases h
    refine (Moved.refl u k p c).mono ?_
    rintro c' rfl
    exact ⟨hb, rfl, rfl⟩
  | cons x ops ih =>
    intro held held' p p' c hk hh hb h
    cases x with
    | prepare i cfg =>
      simp only [runUsesW] at h
      split at h
      case h_2 => cases h
      next st s e =>
      have m1 := prepare_moved u (hk i) e c
      have hk1 : ∀ j, ((p.put i s).term j).t.inH = k := fun j => by rw [m1.t j]; exact hk j
      obtain ⟨g, t⟩ := runUsesW_grows _ _ _ _ _ h
      refine m1.trans ?_ g t
      rintro c1 ⟨rfl, q, rfl⟩
      refine ih _ _ _ _ _ hk1 ?_ ?_ h
      · intro x hx
        rcases List.mem_cons.1 hx with rfl | hx
        · rfl
        · exact hh x hx
      · rw [asking_cons]
        show (if reports cfg then c.handlers + 1 else c.handlers) = _
        rw [hb]
        dsimp only
        split <;> omega
    | restore n =>
      simp only [runUsesW] at h
      split at h
      · cases h
      · next x hx =>
        split at h
        case h_2 => cases h
        next a s e =>
        have m1 := restore_moved u (hk x.term) e c
        have hk1 : ∀ j, ((p.put x.term s).term j).t.inH = k := fun j => by rw [m1.t j]; exact hk j
        obtain ⟨g, t⟩ := runUsesW_grows _ _ _ _ _ h
        refine m1.trans ?_ g t
        rintro c1 ⟨q, rfl⟩
        refine ih _ _ _ _ { restoredCon x.st c with queue := q } hk1 ?_ ?_ h
        · intro y hy
          exact hh y (List.mem_of_mem_eraseIdx hy)
        · show (if x.st.clearHandler then c.handlers - 1 else c.handlers) = _
          rw [hh x (List.mem_of_getElem? hx), hb, asking_erase held n x hx]
          split <;> omega

/-- **C80.** In whatever order the terminals are prepared and restored, the control handler is
registered once for every use that has asked for signals and is not restored, in addition to what
was registered before; so it is left as it was when all are restored. The output settings of the
console are not touched. -/
theorem C80_handlers (u : UEnv) (k : Nat) (ops : List UseW) (held' : List HeldW) (p p' : WProc)
    (c : Con) (D : List WEv) (hk : ∀ j, (p.term j).t.inH = k)
    (h : runUsesW ops [] p = some (held', p')) (hl : p'.log = p.log ++ D) (hr : c.Runs u k D) :
    ∃ c', c.play u k D = some c' ∧ c'.handlers = c.handlers + asking held' ∧ SameOutput c c' :=
  (usesW_handlers u k c.handlers ops [] held' p p' c hk (fun _ h => by cases h) rfl h).con D hl hr

/-- **C80 (refuted part).** Two terminals restored in the order in which they were prepared, for all
terminals, configurations and consoles. When the first is restored the input mode is that before
everything, although the second is still prepared; when the second is restored, too, the mode stays
the one that was set for the first. -/
theorem C80_crossed (u : UEnv) (k i j : Nat) (a b : PrepareConfig) (p p' : WProc) (held' : List HeldW)
    (c : Con) (D : List WEv) (hk : ∀ j, (p.term j).t.inH = k)
    (h : runUsesW [.prepare i a, .prepare j b, .restore 1, .restore 0] [] p = some (held', p'))
    (hl : p'.log = p.log ++ D) (hr : c.Runs u k D) :
    ∃ p1 D1 D2 c1 c2, runUsesW [.prepare i a, .prepare j b, .restore 1] [] p = some p1 ∧
      p1.1.map HeldW.term = [j] ∧ p1.2.log = p.log ++ D1 ∧ D = D1 ++ D2 ∧
      c.play u k D1 = some c1 ∧ c1.inMode = c.inMode ||| 0x80 ∧
      c.play u k D = some c2 ∧ (∀ n < 32, c2.inMode.getLsbD n = preparedBit a c.inMode n) ∧
      c2.handlers = c.handlers := by
  simp only [runUsesW] at h
  split at h
  case h_2 => cases h
  next st1 s1 e1 =>
  split at h
  case h_2 => cases h
  next st2 s2 e2 =>
  simp only [List.getElem?_cons_succ, List.getElem?_cons_zero, List.eraseIdx_cons_succ,
    List.eraseIdx_zero, List.tail_cons] at h
  split at h
  case h_2 => cases h
  next _ s3 e3 =>
  split at h
  case h_2 => cases h
  next _ s4 e4 =>
  cases h
  have m1 := prepare_moved u (hk i) e1 c
  have hk1 : ∀ n, ((p.put i s1).term n).t.inH = k := fun n => by rw [m1.t n]; exact hk n
  have m2 := fun c' => prepare_moved u (hk1 j) e2 c'
  have hk2 : ∀ n, (((p.put i s1).put j s2).term n).t.inH = k := fun n => by
    rw [(m2 demoCon).t n]; exact hk1 n
  have m3 := fun c' => restore_moved u (hk2 i) e3 c'
  have hk3 : ∀ n, ((((p.put i s1).put j s2).put i s3).term n).t.inH = k := fun n => by
    rw [(m3 demoCon).t n]; exact hk2 n
  have m4 := fun c' => restore_moved u (hk3 j) e4 c'
  have n2 := m1.trans (R := fun c' => st1 = ⟨c.inMode, reports a⟩ ∧
      st2 = ⟨prepareMode a c.inMode, reports b⟩ ∧
      ∃ q, c' = { preparedCon b (preparedCon a c) with queue := q })
    (fun c1 hc1 => (m2 c1).mono (by
      obtain ⟨x1, q, rfl⟩ := hc1
      rintro c2 ⟨x2, q2, rfl⟩
      exact ⟨x1, x2, q2, rfl⟩)) (m2 demoCon).grows (m2 demoCon).t
  have n3 := n2.trans (R := fun c' => st2 = ⟨prepareMode a c.inMode, reports b⟩ ∧
      c'.inMode = c.inMode ||| 0x80 ∧ c'.handlers = if reports b then c.handlers + 1 else c.handlers)
    (fun c2 hc2 => (m3 c2).mono (by
      obtain ⟨rfl, x2, q, rfl⟩ := hc2
      rintro c3 ⟨q2, rfl⟩
      refine ⟨x2, rfl, ?_⟩
      show (if reports a then (if reports b then (if reports a then c.handlers + 1 else c.handlers) + 1
        else (if reports a then c.handlers + 1 else c.handlers)) - 1 else
        (if reports b then (if reports a then c.handlers + 1 else c.handlers) + 1
        else (if reports a then c.handlers + 1 else c.handlers))) = _
      cases reports a <;> cases reports b <;> rfl)) (m3 demoCon).grows (m3 demoCon).t
  obtain ⟨D1, d1⟩ := n3.grows
  obtain ⟨D2, d2⟩ := (m4 demoCon).grows
  have hD : D = D1 ++ D2 := by
    rw [d2, d1, List.append_assoc] at hl
    exact (List.append_cancel_left hl).symm
  subst hD
  obtain ⟨r1, r2⟩ := con_runs_append hr
  obtain ⟨c1, q1, x1, x2, x3⟩ := n3.con D1 d1 r1
  obtain ⟨c2, q2, q, rfl⟩ := (m4 c1).con D2 d2 (r2 c1 q1)
  refine ⟨([⟨j, b, st2⟩], ((p.put i s1).put j s2).put i s3), D1, D2, c1, _, ?_, ?_, d1, rfl, q1, x2,
    (by rw [con_play_append, q1]; exact q2), ?_, ?_⟩
  · simp only [runUsesW, e1, e2, List.getElem?_cons_succ, List.getElem?_cons_zero,
      List.eraseIdx_cons_succ, List.eraseIdx_zero, List.tail_cons, e3]
  · rfl
  · intro n hn
    subst x1
    show (prepareMode a c.inMode ||| ENABLE_EXTENDED_FLAGS).getLsbD n = _
    rw [BitVec.getLsbD_or, prepareMode_bit a c.inMode n hn]
    by_cases h7 : n = 7
    · subst h7; rfl
    · have : ENABLE_EXTENDED_FLAGS.getLsbD n = false := by
        revert h7; interval_cases n <;> decide
      rw [this, Bool.or_false]
  · subst x1
    show (if reports b then c1.handlers - 1 else c1.handlers) = _
    rw [x3]
    cases reports b <;> rfl

/-! ## Concrete cases -/

/-- Two terminals on one console, as `Terminal::stdout` and `Terminal::stderr` are. -/
def twoWin (os : List ConStep) : WProc where
  catchSet := 0
  last := noSignal
  os := os
  log := []
  term := fun i => ⟨demoTerm, if i = 0 then 2 else 3, ⟨none, none, .empty⟩, ⟨false, 0⟩⟩

/-- The control events and the reports among what is seen. -/
def sigNotes (n : List (Nat × Note)) : List (Nat × Note) :=
  n.filter fun x => match x.2 with | .report _ => true | .ev (.ctrl _ _ _) => true | _ => false

/-- Terminal 0 asks for interrupts; Ctrl-C is pressed while it writes. -/
def twoWinOps : List (Nat × SigOp) := [(0, .prepare catchInt), (0, .write ['x'])]

/-- The answers of the console to that, and to more calls. -/
def twoWinSteps : List ConStep := okPrepare 0x1F7 ++ [⟨[.ctrl 0 true], .wrote 1⟩] ++
  List.replicate 4 ⟨[], .ok⟩

/-- **C80 (refuted part).** Terminal 0 has asked for interrupts, terminal 1 for nothing. Ctrl-C is
pressed and terminal 1 is read first: it is told of the interrupt, and nothing is kept for terminal 0,
which will not be told. -/
theorem C80_other_told :
    (sessionW (twoWinOps ++ [(1, .readEvent none)]) (twoWin twoWinSteps)).map (fun x =>
      (sigNotes x.1, account none (x.1.map Prod.snd))) =
    some ([(0, .ev (.ctrl 0 true true)), (1, .report .interrupt)], some none) := by decide +kernel

/-- **C80 (refuted part).** Terminal 0 has asked for interrupts. Terminal 1 is prepared for Ctrl-Break
and restored. Then Ctrl-C is not handled any more, although terminal 0 is still prepared: the default
handler ends the process. -/
theorem C80_taken_away_refuted :
    (sessionW [(0, .prepare catchInt), (1, .prepare (winCfg (.ofSignal .break) false false)),
        (1, .restore ⟨0x1A8, true⟩), (0, .write ['x'])]
      (twoWin (okPrepare 0x1F7 ++ okPrepare 0x1A8 ++ [⟨[], .ok⟩, ⟨[], .ok⟩, ⟨[.ctrl 0 true], .wrote 1⟩]))).map
      (fun x => sigNotes x.1) = some [(0, .ev (.ctrl 0 false false))] := by decide +kernel

/-- The answers of the console to a call that reads one record. -/
def okRead (r : InRec) : List ConStep := [⟨[], .ok⟩, ⟨[.input r], .ok⟩, ⟨[], .ok⟩, ⟨[], .recs [r]⟩]

/-- What two reads of events, on these terminals, return. -/
def twoReads (i j : Nat) (p : WProc) : Option (Option Event × Option Event) :=
  match winReadEvent (p.term i).t none (p.view i) with
  | .ok a s =>
    match winReadEvent ((p.put i s).term j).t none ((p.put i s).view j) with
    | .ok b _ => some (a, b)
    | _ => none
  | _ => none

/-- **C80 (refuted part).** Each terminal remembers the buttons it has seen for itself. The left button is
pressed and released. If one terminal reads both, it tells of both; if another one reads the release it
tells of nothing, and the terminal that has told of the press takes the button for pressed. -/
theorem C80_release_lost :
    let p := twoWin (okRead (.mouse ⟨⟨3, 4⟩, 1, 0, 0⟩) ++ okRead (.mouse ⟨⟨3, 4⟩, 0, 0, 0⟩))
    twoReads 0 0 p = some (some (.mouse ⟨⟨4, 3⟩, .buttonPressed .left, ⟨false, false, false⟩⟩),
      some (.mouse ⟨⟨4, 3⟩, .buttonReleased .left, ⟨false, false, false⟩⟩)) ∧
    twoReads 1 0 p = some (some (.mouse ⟨⟨4, 3⟩, .buttonPressed .left, ⟨false, false, false⟩⟩), some .noEvent) := by
  decide +kernel

/-- `C80_own` for terminal 1: the processes differ in what terminal 0 remembers, and the calls succeed. -/
example : let p := twoWin (okRead (.mouse ⟨⟨3, 4⟩, 1, 0, 0⟩) ++ okRead (.mouse ⟨⟨3, 4⟩, 0, 0, 0⟩))
    let q := { p with term := fun i => if i = 0 then { p.term 0 with rd := ⟨true, 5⟩ } else p.term i }
    SameForW (· = 1) p q ∧ (p.term 0).rd ≠ (q.term 0).rd ∧
      ((sessionW [(1, .readEvent none), (1, .readEvent none)] p).map fun x => x.2.os.length) = some 0 :=
  ⟨⟨rfl, rfl, rfl, rfl, fun i hi => by cases hi; rfl⟩, by decide, by decide +kernel⟩

/-- The hypotheses of `C80_accounted`, `C80_told_once` and `C80_immediate` are met: a signal is kept
after `twoWinOps`. -/
example : (twoWin twoWinSteps).last = noSignal ∧
    (sessionW twoWinOps (twoWin twoWinSteps)).map (fun x => (account none (x.1.map Prod.snd),
      decide (2 ≤ x.2.os.length))) = some (some (some .interrupt), true) :=
  ⟨rfl, by decide +kernel⟩

/-- The uses of `C80_crossed` and properly nested ones succeed, and the console can answer so. -/
example : (∀ j, ((twoWin []).term j).t.inH = 1) ∧
    ((runUsesW [.prepare 0 catchInt, .prepare 1 catchInt, .restore 1, .restore 0] []
      (twoWin (okPrepare 0x1F7 ++ okPrepare 0x1A8 ++ List.replicate 4 ⟨[], .ok⟩))).map fun x =>
      (x.1.length, runsB demoEnv 1 x.2.log demoCon,
        (demoCon.play demoEnv 1 x.2.log).map fun c => (c.inMode, c.handlers))) =
    some (0, true, some (0x1A8, 0)) ∧
    NestedW [.prepare 0 catchInt, .prepare 1 catchInt, .restore 0, .restore 0] ∧
    ((runUsesW [.prepare 0 catchInt, .prepare 1 catchInt, .restore 0, .restore 0] []
      (twoWin (okPrepare 0x1F7 ++ okPrepare 0x1A8 ++ List.replicate 4 ⟨[], .ok⟩))).map fun x =>
      (x.1.length, runsB demoEnv 1 x.2.log demoCon,
        (demoCon.play demoEnv 1 x.2.log).map fun c => (c.inMode, c.handlers))) =
    some (0, true, some (0x1F7, 0)) :=
  ⟨fun _ => rfl, by decide +kernel, .wrap 0 catchInt (.wrap 1 catchInt .nil .nil) .nil, by decide +kernel⟩

/-- `C80_handled`: the latest `prepare` asks for Ctrl-Break only, on terminal 1. -/
example : AsksCtrl (winCfg (.ofSignal .break) false false) ∧
    (match winPrepare demoTerm (winCfg (.ofSignal .break) false false) ((twoWin (okPrepare 0x1F7)).view 1) with
      | .ok st _ => some st
      | _ => none) = some ⟨0x1F7, true⟩ := ⟨by decide, by decide +kernel⟩

end Mortal
