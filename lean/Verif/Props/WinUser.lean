import Verif.Lemmas.WinUserScreen
import Verif.Lemmas.WinCheck
import Verif.Props.WinSignal
import Verif.Props.WinSession

/-! # C73: what the user does at a Windows console is what the program is told -/

namespace Mortal
open Spec

/-- **C73.** Records are read once, in order and none is lost. Whatever calls are made on a terminal,
whether they succeed or fail, and whatever arrives meanwhile: the records taken by the calls, as their
results show, followed by those still in the queue, are those that were there in the beginning, followed
by those that arrived. (`read_raw` has the console turn records into characters; what becomes of the
queue then is not specified.) -/
theorem C73_records (u : UEnv) (t : WTerm) (ops : List SigOp) (s s' : WinSt) (c c' : Con)
    (n : List (SigOp × Option (Option Event × List InRec))) (D : List WEv)
    (h : callsMade t ops s = some (n, s')) (hl : s'.log = s.log ++ D) (hr : c.Runs u t.inH D)
    (hp : c.play u t.inH D = some c') :
    ∃ l, TookAll n l ∧ l ++ c'.queue = c.queue ++ arriving D :=
  ⟨takenRecs D, callsMade_took ops h hl hr hp, queue_account D c c' hr hp⟩

/-- The mode and the reader after `prepare`. -/
theorem prepared_as {u : UEnv} {t : WTerm} {cfg : PrepareConfig} {s s1 : WinSt} {p : WinPrepared}
    {c c1 : Con} {D : List WEv} (h : winPrepare t cfg s = .ok p s1) (hl : s1.log = s.log ++ D)
    (hr : c.Runs u t.inH D) (hp : c.play u t.inH D = some c1) :
    AsPrepared cfg c1.inMode s1.rd ∧ s1.rd.prev = s.rd.prev ∧ c1.inMode.getLsbD 9 = false := by
  obtain ⟨c', e1, h1, -⟩ := C46_prepare u t cfg s s1 p c D h hl hr
  rw [hp] at e1
  cases e1
  obtain ⟨-, h2⟩ := (prepare_took t cfg s).1 p s1 h
  refine ⟨⟨h1 0 (by decide), h1 3 (by decide), h1 4 (by decide), h1 6 (by decide), fun hm => ?_⟩, ?_,
    h1 9 (by decide)⟩
  · rw [h2, if_pos hm]
  · rw [h2]; split <;> rfl

/-- **C73.** What the user does at a Windows console is what the program is told. A program prepares the
terminal and then makes any calls, except that it does not read raw input or prepare anew; calls may
fail, and control events may arrive. The user presses keys, uses the mouse and changes the size of the
window, and the console queues records accordingly, and others. Then what `read_event` returns is what
the user did, in order, so far as the program asked for it; and the records still in the queue are
those of the rest. -/
theorem C73_events (u : UEnv) (t : WTerm) (cfg : PrepareConfig) (ops : List SigOp) (s s1 s' : WinSt)
    (c c1 c' : Con) (p : WinPrepared) (n : List (SigOp × Option (Option Event × List InRec)))
    (D D' : List WEv) (acts : List ConAct) (held' : BitVec 32)
    (h : winPrepare t cfg s = .ok p s1) (hl : s1.log = s.log ++ D) (hr : c.Runs u t.inH D)
    (hp : c.play u t.inH D = some c1)
    (ho : ∀ op ∈ ops, op.Ordinary) (h' : callsMade t ops s1 = some (n, s')) (hl' : s'.log = s1.log ++ D')
    (hr' : c1.Runs u t.inH D') (hp' : c1.play u t.inH D' = some c')
    (ha : ∀ a ∈ acts, a.Possible)
    (hq : Queued c1.inMode s.rd.prev acts (c1.queue ++ arriving D') held') :
    ∃ done rest, acts = done ++ rest ∧ toldEvents n = (done.filter (ConAsked cfg)).map ConAct.event ∧
      Queued c1.inMode s'.rd.prev rest c'.queue held' := by
  obtain ⟨h1, h2, -⟩ := prepared_as h hl hr hp
  rw [← h2] at hq
  obtain ⟨done, rest, g1, g2, -, g3⟩ := ordinary_told ops ho h1 h' hl' hr' hp' ha hq
  exact ⟨done, rest, g1, g2, g3⟩

/-- **C73.** When the queue is empty in the end, the program has been told everything it asked for, and
nothing else. -/
theorem C73_all (u : UEnv) (t : WTerm) (cfg : PrepareConfig) (ops : List SigOp) (s s1 s' : WinSt)
    (c c1 c' : Con) (p : WinPrepared) (n : List (SigOp × Option (Option Event × List InRec)))
    (D D' : List WEv) (acts : List ConAct) (held' : BitVec 32)
    (h : winPrepare t cfg s = .ok p s1) (hl : s1.log = s.log ++ D) (hr : c.Runs u t.inH D)
    (hp : c.play u t.inH D = some c1)
    (ho : ∀ op ∈ ops, op.Ordinary) (h' : callsMade t ops s1 = some (n, s')) (hl' : s'.log = s1.log ++ D')
    (hr' : c1.Runs u t.inH D') (hp' : c1.play u t.inH D' = some c')
    (ha : ∀ a ∈ acts, a.Possible)
    (hq : Queued c1.inMode s.rd.prev acts (c1.queue ++ arriving D') held') (he : c'.queue = []) :
    toldEvents n = (acts.filter (ConAsked cfg)).map ConAct.event := by
  obtain ⟨h1, h2, -⟩ := prepared_as h hl hr hp
  rw [← h2] at hq
  obtain ⟨done, rest, rfl, g2, g3, g4⟩ := ordinary_told ops ho h1 h' hl' hr' hp' ha hq
  rw [he] at g4
  rw [g2, List.filter_append, queued_nil g3 g4, List.append_nil]

/-- **C73.** The same for a screen: what its `read_event` returns is what the user did, so far as the
program asked for it, and the screen's size is the last one told. -/
theorem C73_screen (u : UEnv) (hu : SpaceOk u) (t : WTerm) (cfg : PrepareConfig) (ops : List WScrOp)
    (s : WinSt) (x : WScreen) (y y' : WScr) (c c1 c' : Con) (n : List Event) (D D' : List WEv)
    (acts : List ConAct) (held' : BitVec 32)
    (h : winScreenNew t cfg s = .ok (x, y.toSData) y.w) (hl : y.w.log = s.log ++ D) (hr : c.Runs u t.inH D)
    (hp : c.play u t.inH D = some c1)
    (ho : ∀ op ∈ ops, op.Public) (h' : wsCallsMade u t ops y = some (n, y')) (hl' : y'.w.log = y.w.log ++ D')
    (hr' : c1.Runs u t.inH D') (hp' : c1.play u t.inH D' = some c')
    (ha : ∀ a ∈ acts, a.Possible)
    (hq : Queued c1.inMode s.rd.prev acts (c1.queue ++ arriving D') held') :
    ∃ done rest, acts = done ++ rest ∧ told n = (done.filter (ConAsked cfg)).map ConAct.event ∧
      Queued c1.inMode y'.w.rd.prev rest c'.queue held' ∧ y'.buf.size = lastSize y.buf.size (told n) ∧
      (c'.queue = [] → told n = (acts.filter (ConAsked cfg)).map ConAct.event) := by
  obtain ⟨s0, p, ⟨⟨D0, k1, -⟩, k2⟩, k3⟩ := screenNew_prepares h
  obtain ⟨⟨D1, k4, -⟩, -⟩ := (prepare_took t cfg s0).1 p _ k3
  obtain rfl : D = D0 ++ D1 := by
    rw [k4, k1, List.append_assoc] at hl
    exact (List.append_cancel_left hl).symm
  obtain ⟨c0, g1, g2, g3, g4⟩ := con_runs_left hr hp
  obtain ⟨h1, h2, -⟩ := prepared_as k3 k4 g3 g4
  rw [← k2, ← h2, ← queue_account D' c1 c' hr' hp'] at hq
  obtain ⟨done, rest, rfl, e2, e3, e4, e5⟩ := screen_told hu ops ho h1 h' hl' ha hq
  refine ⟨done, rest, rfl, e2, e4, by rw [e5, lastSize_told], fun he => ?_⟩
  rw [he] at e4
  rw [e2, List.filter_append, queued_nil e3 e4, List.append_nil]

/-- **C73.** Nothing is kept from the program: a `read_event` that returns nothing found the queue empty,
and nothing arrived while it waited. -/
theorem C73_nothing_missed (u : UEnv) (t : WTerm) (d : Option Duration) (s s' : WinSt) (c c' : Con)
    (D : List WEv) (h : winReadEvent t d s = .ok none s') (hl : s'.log = s.log ++ D)
    (hr : c.Runs u t.inH D) (hp : c.play u t.inH D = some c') :
    c.queue = [] ∧ arriving D = [] ∧ c'.queue = [] := by
  have key : winReadRawEvent t 1 d s = .ok (none, []) s' ∨
      winReadRawEvent t 1 d s = .ok (some (.raw 0), []) s' := by
    unfold winReadEvent at h
    simp only [sm_bind] at h
    have hk := readRawEvent_took t 1 d s
    cases hm : winReadRawEvent t 1 d s with
    | stop w => rw [hm] at h; cases h
    | err e s1 => rw [hm] at h; cases h
    | ok r s1 =>
      obtain ⟨-, -, -, h4⟩ := hk.1 _ _ hm
      rw [hm] at h
      obtain ⟨ev, l⟩ := r
      dsimp only at h h4
      rcases h4 with ⟨rfl, -⟩ | ⟨rfl, ⟨rfl, -⟩ | ⟨sig, rfl⟩⟩
      · cases l with
        | nil => cases h; exact Or.inr rfl
        | cons e l =>
          dsimp only at h
          simp only [sm_bind, sm_get] at h
          cases hv : recordEvent s1.rd e with
          | none => rw [hv] at h; cases h
          | some v => rw [hv] at h; cases h
      · cases h; exact Or.inl rfl
      · cases h
  rcases key with k | k
  · obtain ⟨-, -, -, h4⟩ := (readRawEvent_took t 1 d s).1 _ _ k
    dsimp only at h4
    rcases h4 with ⟨h4, -⟩ | ⟨-, ⟨-, h4⟩ | ⟨sig, h4⟩⟩
    · cases h4
    · obtain ⟨-, g1, g2⟩ := wait_timeout u t d h4 hl hr
      have ha : arriving D = [] := by
        clear hl hr hp
        induction D with
        | nil => rfl
        | cons e D ih =>
          have h1 := g2 e (by simp)
          have h2 := ih fun x hx => g2 x (List.mem_cons_of_mem _ hx)
          cases e with
          | input r => exact absurd trivial h1
          | call c a => exact h2
          | ctrl ty hd w =>
            cases w with
            | true => exact absurd rfl h1
            | false => exact h2
      have hq := queue_account D c c' hr hp
      rw [g1, ha, List.append_nil, List.append_eq_nil_iff] at hq
      exact ⟨g1, ha, hq.2⟩
    · cases h4
  · obtain ⟨-, -, -, h4⟩ := (readRawEvent_took t 1 d s).1 _ _ k
    dsimp only at h4
    rcases h4 with ⟨-, D', h4, h5⟩ | ⟨-, ⟨h4, -⟩ | ⟨sig, h4⟩⟩
    · rw [hl] at h4
      rw [← List.append_cancel_left h4] at h5
      exact absurd h5 (runs_no_empty D c c' hr hp _ _)
    · cases h4
    · cases h4

/-! ## Concrete cases -/

/-- Keys, among them Ctrl-C, the mouse and a new size. -/
def winActs : List ConAct :=
  [.user (.key (.char 'é')), .user (.key (.ctrl 'c')), .user (.key .up),
   .user (.mouse (.press .right) ⟨3, 119⟩ ⟨false, true, false⟩), .user (.mouse (.move (some .right)) ⟨3, 118⟩ ⟨false, false, false⟩),
   .user (.mouse (.release .right) ⟨3, 118⟩ ⟨false, false, false⟩), .user (.mouse (.move none) ⟨2, 2⟩ ⟨false, false, false⟩),
   .user (.mouse .wheelDown ⟨2, 2⟩ ⟨false, false, false⟩), .resize ⟨30, 100⟩, .user (.key (.f 12))]

/-- The records of it. -/
def winActRecs : List InRec :=
  [.key ⟨true, 0xDE, 0xE9, 0⟩, .key ⟨false, 0xDE, 0xE9, 0⟩, .key ⟨true, 0x11, 0, 8⟩, .key ⟨true, 0x43, 3, 8⟩,
   .key ⟨false, 0x43, 3, 8⟩, .other, .key ⟨true, 0x26, 0, 0x100⟩,
   .mouse ⟨⟨119, 3⟩, 2, 8, 0⟩, .mouse ⟨⟨118, 3⟩, 2, 0, 1⟩, .mouse ⟨⟨118, 3⟩, 0, 0, 0⟩, .mouse ⟨⟨2, 2⟩, 0, 0, 1⟩,
   .mouse ⟨⟨2, 2⟩, 0xFF880000, 0, 4⟩, .size ⟨100, 30⟩, .key ⟨true, 0x7B, 0, 0⟩]

theorem not_named {vk : BitVec 16} (h : vkKey vk.toNat = none) : ∀ key, (vk.toNat, key) ∉ namedKeys := by
  intro key hk
  rw [(vkKey_iff _ _).2 hk] at h
  cases h

theorem set_bits {a b : BitVec 32} {k : Nat} {v : Bool} (h : ∀ i ∈ List.range 32, b.getLsbD i = if i = k then v else a.getLsbD i)
    (hk : k < 32) : ∀ i, b.getLsbD i = if i = k then v else a.getLsbD i := by
  intro i
  by_cases hi : i < 32
  · exact h i (List.mem_range.mpr hi)
  · rw [BitVec.getLsbD_of_ge _ _ (by omega), BitVec.getLsbD_of_ge _ _ (by omega), if_neg (by omega)]

theorem winActs_queued : Queued 0x1B8 0 winActs winActRecs 0 := by
  refine .key _ _ (by decide) (by decide) ⟨rfl, not_named (by decide), by decide, fun i hi => by simp⟩ ?_
  refine .idle _ (Or.inl rfl) ?_
  refine .idle _ (Or.inr ⟨not_named (by decide), rfl⟩) ?_
  refine .key _ _ (by decide) (by decide) ⟨rfl, not_named (by decide), by decide, by decide, by decide, by decide⟩ ?_
  refine .idle _ (Or.inl rfl) (.idle _ trivial ?_)
  refine .key _ _ (by decide) (by decide) ⟨rfl, by decide⟩ ?_
  refine .mouse (h1 := 2) _ _ _ _ (by decide) ⟨rfl, by decide, by decide, by decide, by decide, rfl, 1, by decide, rfl, by decide,
    set_bits (by decide) (by decide)⟩ ?_
  refine .mouse (h1 := 2) _ _ _ _ (by decide) ⟨rfl, by decide, by decide, by decide, by decide, rfl, rfl, 1, by decide, rfl, by decide⟩ ?_
  refine .mouse (h1 := 0) _ _ _ _ (by decide) ⟨rfl, by decide, by decide, by decide, by decide, rfl, 1, by decide, rfl, by decide,
    set_bits (by decide) (by decide)⟩ ?_
  refine .mouse (h1 := 0) _ _ _ _ (by decide) ⟨rfl, by decide, by decide, by decide, by decide, rfl, rfl, rfl⟩ ?_
  refine .mouse (h1 := 0) _ _ _ _ (by decide) ⟨rfl, by decide, by decide, by decide, by decide, rfl, by decide⟩ ?_
  refine .size _ (by decide) ?_
  exact .key _ _ (by decide) (by decide) ⟨rfl, by decide⟩ (.nil _)

theorem winActs_possible : ∀ a ∈ winActs, a.Possible := by
  intro a ha
  simp only [winActs, List.mem_cons, List.not_mem_nil, or_false] at ha
  rcases ha with rfl | rfl | rfl | rfl | rfl | rfl | rfl | rfl | rfl | rfl
  · exact ⟨by decide, by decide⟩
  · exact ⟨by decide, by decide⟩
  · trivial
  · exact ⟨by decide, by decide⟩
  · exact ⟨by decide, by decide⟩
  · exact ⟨by decide, by decide⟩
  · exact ⟨by decide, by decide⟩
  · exact ⟨by decide, by decide⟩
  · exact ⟨by decide, by decide⟩
  · exact ⟨by decide, by decide⟩

/-- The answers: to `prepare`; text is written while everything arrives; a
second write fails; records are read one by one. -/
def winActSteps : List ConStep :=
  [⟨[], .mode 0x1F7⟩, ⟨[], .ok⟩, ⟨winActRecs.map .input, .wrote 1⟩, ⟨[], .fail⟩] ++
  winActRecs.flatMap fun r => [⟨[], .ok⟩, ⟨[], .ok⟩, ⟨[], .ok⟩, ⟨[], .recs [r]⟩]

def winActOps : List SigOp :=
  [.write ['x'], .write ['y']] ++ List.replicate winActRecs.length (.readEvent none)

/-- The run: after `prepare`, the calls, and what the console says. -/
def winActRun : Option (List Event × Bool × Bool × List InRec × BitVec 32) :=
  match winPrepare demoTerm (winCfg .new true false) (demoSt winActSteps) with
  | .ok _ s1 =>
    (checkPlay demoEnv 1 s1.log demoCon).bind fun c1 =>
      (callsMade demoTerm winActOps s1).bind fun (n, s') =>
        let D := s'.log.drop s1.log.length
        (checkPlay demoEnv 1 D c1).map fun c' =>
          (toldEvents n, decide (s'.log = s1.log ++ D), decide (arriving D = winActRecs), c'.queue, c1.inMode)
  | _ => none

/-- All hypotheses of `C73_all` hold, and the program is told everything, except moving without a button,
which it did not ask for. -/
example : winActRun = some ([.key (.char 'é'), .key (.ctrl 'c'), .key .up,
    .mouse ⟨⟨3, 119⟩, .buttonPressed .right, ⟨false, true, false⟩⟩, .mouse ⟨⟨3, 118⟩, .motion, ⟨false, false, false⟩⟩,
    .mouse ⟨⟨3, 118⟩, .buttonReleased .right, ⟨false, false, false⟩⟩,
    .mouse ⟨⟨2, 2⟩, .wheelDown, ⟨false, false, false⟩⟩, .resize ⟨30, 100⟩, .key (.f 12)], true, true, [], 0x1B8) := by
  decide +kernel

example : ∀ op ∈ winActOps, op.Ordinary := by
  intro op h
  simp only [winActOps, List.cons_append, List.nil_append, List.mem_cons, List.mem_replicate] at h
  rcases h with rfl | rfl | ⟨-, rfl⟩ <;> trivial

/-- On a screen: a key, a new size and a turn of the wheel, while the program draws. -/
def scrActs : List ConAct :=
  [.user (.key (.char 'a')), .resize ⟨3, 4⟩, .user (.mouse .wheelDown ⟨2, 2⟩ ⟨false, false, false⟩)]

def scrActRecs : List InRec :=
  [.key ⟨true, 0x41, 0x61, 0⟩, .size ⟨4, 3⟩, .other, .mouse ⟨⟨2, 2⟩, 0xFF880000, 0, 4⟩]

theorem scrActs_queued : Queued 0x1B8 0 scrActs scrActRecs 0 := by
  refine .key _ _ (by decide) (by decide) ⟨rfl, not_named (by decide), by decide, fun i hi => by simp⟩ ?_
  refine .size _ (by decide) (.idle _ trivial ?_)
  exact .mouse (h1 := 0) _ _ _ _ (by decide) ⟨rfl, by decide, by decide, by decide, by decide, rfl, by decide⟩ (.nil _)

theorem scrActs_possible : ∀ a ∈ scrActs, a.Possible := by
  intro a ha
  simp only [scrActs, List.mem_cons, List.not_mem_nil, or_false] at ha
  rcases ha with rfl | rfl | rfl <;> exact ⟨by decide, by decide⟩

def scrOps : List WScrOp :=
  [.readEvent none, .draw (.writeStr ['x', 'y']), .guard [.draw (.setFg (some .red)), .setCursorMode .invisible],
   .readEvent none, .readEvent none, .readEvent none]

/-- The answers; refreshing fails. -/
def scrSteps : List ConStep :=
  sessEnterOs ++ [⟨[], .ok⟩] ++ [⟨scrActRecs.map .input, .ok⟩, ⟨[], .ok⟩, ⟨[], .ok⟩, ⟨[], .recs (scrActRecs.take 1)⟩,
    ⟨[], .ok⟩, ⟨[], .fail⟩] ++
  (scrActRecs.drop 1).flatMap fun r => [⟨[], .ok⟩, ⟨[], .ok⟩, ⟨[], .ok⟩, ⟨[], .recs [r]⟩]

/-- The run, as above. -/
def scrActRun : Option (List Event × Size × Bool) :=
  match winScreenNew demoTerm (winCfg .new true false) (demoSt scrSteps) with
  | .ok (_, d) s1 =>
    (checkPlay demoEnv 1 s1.log demoCon).bind fun c1 =>
      (wsCallsMade demoEnv demoTerm scrOps ⟨d, s1⟩).bind fun (n, s') =>
        let D := s'.w.log.drop s1.log.length
        (checkPlay demoEnv 1 D c1).map fun c' =>
          (told n, s'.buf.size,
            decide (s'.w.log = s1.log ++ D ∧ arriving D = scrActRecs ∧ c'.queue = [] ∧ c1.inMode = 0x1B8))
  | _ => none

/-- All hypotheses of `C73_screen` hold. -/
example : scrActRun = some ([.key (.char 'a'), .resize ⟨3, 4⟩, .mouse ⟨⟨2, 2⟩, .wheelDown, ⟨false, false, false⟩⟩],
    ⟨3, 4⟩, true) := by decide +kernel

example : ∀ op ∈ scrOps, op.Public := by
  intro op h
  simp only [scrOps, List.mem_cons, List.not_mem_nil, or_false] at h
  rcases h with rfl | rfl | rfl | rfl | rfl | rfl <;> first | trivial | (intro z; simp)

/-- A read that times out. -/
example : (match winReadEvent demoTerm (some ⟨0, 0⟩) (demoSt [⟨[], .ok⟩, ⟨[.ctrl 0 false], .timeout⟩]) with
    | .ok none s' => (checkPlay demoEnv 1 s'.log { demoCon with handlers := 1 }).isSome
    | _ => false) = true := by decide +kernel

/-! ## A button released while the mouse was off -/

/-- The claim that a program that prepares the terminal anew is told what the user does from then on, in a
case: the left button is pressed. -/
def PressTold (s : WinSt) (c : Con) (p : Cursor) : Prop :=
  ∀ s' D c' ev, winReadEvent demoTerm none s = .ok (some ev) s' → s'.log = s.log ++ D →
    c.Runs demoEnv 1 D → c.play demoEnv 1 D = some c' → c.queue = [] →
    arriving D = [.mouse ⟨atCoord p, 1, 0, 0⟩] →
    ev = (UserAct.mouse (.press .left) p ⟨false, false, false⟩).event

/-- A program used the terminal with the mouse: it prepared it, was told of a press of the left button,
restored it, and prepared it again. The user released the button meanwhile, when the mouse was not
reported; no button is held. -/
def ReleasedUnseen (s : WinSt) (c : Con) : Prop :=
  ∃ os n p, callsMade demoTerm [.prepare (winCfg .new true false), .readEvent none, .restore p,
      .prepare (winCfg .new true false)] (demoSt os) = some (n, s) ∧ (∀ r ∈ n, r.2 ≠ none) ∧
    toldEvents n = [.mouse ⟨⟨0, 0⟩, .buttonPressed .left, ⟨false, false, false⟩⟩] ∧
    demoCon.Runs demoEnv 1 s.log ∧ demoCon.play demoEnv 1 s.log = some c

/-- The answers, up to and with the press that follows. -/
def staleBtnSteps : List ConStep :=
  [⟨[], .mode 0x1F7⟩, ⟨[], .ok⟩, ⟨[.input (.mouse ⟨⟨0, 0⟩, 1, 0, 0⟩)], .ok⟩, ⟨[], .ok⟩, ⟨[], .ok⟩,
   ⟨[], .recs [.mouse ⟨⟨0, 0⟩, 1, 0, 0⟩]⟩, ⟨[], .ok⟩, ⟨[], .mode 0x1F7⟩, ⟨[], .ok⟩]

/-- The run, by evaluation. -/
def staleRun : Option (Option Event × List InRec × List InRec) :=
  let more : List ConStep := [⟨[.input (.mouse ⟨⟨7, 5⟩, 1, 0, 0⟩)], .ok⟩, ⟨[], .ok⟩, ⟨[], .ok⟩,
    ⟨[], .recs [.mouse ⟨⟨7, 5⟩, 1, 0, 0⟩]⟩]
  (callsMade demoTerm [.prepare (winCfg .new true false), .readEvent none, .restore ⟨0x1F7, false⟩,
    .prepare (winCfg .new true false)] (demoSt (staleBtnSteps ++ more))).bind fun (n, s) =>
    if (n.all fun r => r.2.isSome) ∧
        toldEvents n = [.mouse ⟨⟨0, 0⟩, .buttonPressed .left, ⟨false, false, false⟩⟩] then
      (checkPlay demoEnv 1 s.log demoCon).bind fun c =>
        match winReadEvent demoTerm none s with
        | .ok ev s' =>
          let D := s'.log.drop s.log.length
          if s'.log = s.log ++ D then
            (checkPlay demoEnv 1 D c).map fun _ => (ev, c.queue, arriving D)
          else none
        | _ => none
    else none

theorem staleRun_eq : staleRun = some (some (.mouse ⟨⟨5, 7⟩, .motion, ⟨false, false, false⟩⟩), [],
    [.mouse ⟨⟨7, 5⟩, 1, 0, 0⟩]) := by decide +kernel

/-- **C73, negative.** `prepare` does not forget the buttons: if the user released one while the mouse was
not reported, the next press of it is reported as motion. (So in `C73_events` the buttons held in the
beginning are those the terminal knows of.) -/
theorem C73_stale_button : ∃ s c, ReleasedUnseen s c ∧ ¬ ∀ p, PressTold s c p := by
  have h := staleRun_eq
  unfold staleRun at h
  dsimp only at h
  rw [Option.bind_eq_some_iff] at h
  obtain ⟨⟨n, s⟩, h1, h⟩ := h
  dsimp only at h
  split at h
  · rename_i hn
    rw [Option.bind_eq_some_iff] at h
    obtain ⟨c, h2, h⟩ := h
    cases hr : winReadEvent demoTerm none s with
    | stop w => rw [hr] at h; cases h
    | err e s' => rw [hr] at h; cases h
    | ok ev s' =>
      rw [hr] at h
      dsimp only at h
      split at h
      · rename_i hD
        rw [Option.map_eq_some_iff] at h
        obtain ⟨c', h3, h4⟩ := h
        simp only [Prod.mk.injEq] at h4
        obtain ⟨rfl, h5, h6⟩ := h4
        obtain ⟨g1, g2⟩ := checkPlay_sound _ _ _ h2
        obtain ⟨g3, g4⟩ := checkPlay_sound _ _ _ h3
        refine ⟨s, c, ⟨_, n, _, h1, fun r hr e => ?_, hn.2, g1, g2⟩, fun hall => ?_⟩
        · have := List.all_eq_true.mp hn.1 r hr
          rw [e] at this
          cases this
        · have := hall ⟨5, 7⟩ s' _ c' _ hr hD g3 g4 h5 h6
          cases this
      · cases h
  · cases h

end Mortal
