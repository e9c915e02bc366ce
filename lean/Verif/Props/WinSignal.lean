import Verif.Lemmas.WinSignal
import Verif.Lemmas.WinCheck
import Verif.Props.WinMode

/-! # C51: Windows control events are reported, superseded or kept -/

namespace Mortal
open Spec

/-- No signal has been handled. -/
theorem kept_none {s : WinSt} (h : s.last = noSignal) : kept s = none := by
  unfold kept
  rw [h]
  decide

/-- **C51.** Whatever calls are made on a terminal, whether they succeed or fail, and whenever control
events arrive: the signals reported are exactly accounted for. A call reports a signal only if that is
the newest one handled and it was not reported before; a handled signal is reported, replaced by a
newer one, or still kept (`p`). -/
theorem C51_accounted (t : WTerm) (ops : List SigOp) (s s' : WinSt) (n : List Note)
    (hs : s.last = noSignal) (h : session t ops s = some (n, s')) : ∃ p, account none n = some p := by
  have := session_account t ops s s' n h
  rw [kept_none hs] at this
  exact ⟨_, this⟩

/-- **C51.** A signal that is kept is reported by the next call that reads, or a newer one in its place:
the call does not fail, it makes no call of the console (so that it does not wait, whatever the
timeout), and after it no signal is kept. -/
theorem C51_immediate (t : WTerm) (ops : List SigOp) (s s' : WinSt) (n : List Note) (sig : Signal)
    (op : SigOp) (hs : s.last = noSignal) (h : session t ops s = some (n, s'))
    (hk : account none n = some (some sig)) (ho : op.IsRead) :
    (∀ e s'', op.run t s' ≠ .err e s'') ∧
    (2 ≤ s'.os.length → ∃ a s'', op.run t s' = .ok a s'') ∧
    ∀ a s'', op.run t s' = .ok a s'' →
      (∀ e, .ev e ∈ between s' s'' → NoWait e) ∧
      ∃ sig', account (some sig) (between s' s'') = some (some sig') ∧ a = some (.signal sig') ∧
        account none (n ++ between s' s'' ++ reportOf a) = some none := by
  have hkept : kept s' = some sig := by
    have := session_account t ops s s' n h
    rw [kept_none hs, hk] at this
    exact (Option.some.inj this).symm
  exact reads_now t op hkept ho hk

/-- **C51.** The same for waiting: it answers at once that there is something to read. -/
theorem C51_wait_immediate (t : WTerm) (ops : List SigOp) (s s' : WinSt) (n : List Note) (sig : Signal)
    (d : Option Duration) (hs : s.last = noSignal) (h : session t ops s = some (n, s'))
    (hk : account none n = some (some sig)) :
    (∀ e s'', winWait t d s' ≠ .err e s'') ∧
    (1 ≤ s'.os.length → ∃ s'', winWait t d s' = .ok true s'') ∧
    ∀ a s'', winWait t d s' = .ok a s'' → a = true ∧ ∀ e, .ev e ∈ between s' s'' → NoWait e := by
  have hkept : kept s' = some sig := by
    have := session_account t ops s s' n h
    rw [kept_none hs, hk] at this
    exact (Option.some.inj this).symm
  have hf := wait_finds t d hkept
  have ok : ∀ a s'', winWait t d s' = .ok a s'' → a = true ∧ ∀ e, .ev e ∈ between s' s'' → NoWait e := by
    intro a s'' e
    obtain ⟨D, sig', h1, h2, -, rfl, -⟩ := hf.ok _ _ e
    refine ⟨rfl, fun e he => ?_⟩
    rw [between_eq h1] at he
    obtain ⟨d, hd, hd'⟩ := List.mem_map.mp he
    cases hd'
    exact h2 _ hd
  refine ⟨hf.no_err, fun hl => ?_, ok⟩
  obtain ⟨a, s'', e⟩ := hf.runs hl
  rw [(ok a s'' e).1] at e
  exact ⟨s'', e⟩

/-- **C51.** From a `prepare` that asks for signals until the next one, a control event is handled
exactly if its signal was asked for. -/
theorem C51_handled (t : WTerm) (cfg : PrepareConfig) (ops : List SigOp) (s s1 s' : WinSt)
    (p : WinPrepared) (n : List Note) (hc : AsksCtrl cfg) (h : winPrepare t cfg s = .ok p s1)
    (hp : ∀ op ∈ ops, ¬ op.IsPrepare) (hs : session t ops s1 = some (n, s')) :
    ∀ x ∈ n, x.HandledBy cfg.reportSignals := by
  have h1 := ((prepare_notes t cfg s).1 p s1 h).2 ((reports_iff cfg).mpr hc)
  intro x hx
  cases x with
  | report r => trivial
  | ev e =>
    refine handledAs_set _ e ?_
    rw [← h1]
    exact session_handled t ops hp s1 s' n hs _ hx e rfl

/-- **C51.** A wait that times out: no signal was kept when it started, and until it gave up no input
came in and no control event woke it up. -/
theorem C51_timeout (u : UEnv) (t : WTerm) (ops : List SigOp) (s s' s'' : WinSt) (n : List Note)
    (d : Option Duration) (c : Con) (D : List WEv) (hs : s.last = noSignal)
    (h : session t ops s = some (n, s')) (hw : winWait t d s' = .ok false s'')
    (hl : s''.log = s'.log ++ D) (hr : c.Runs u t.inH D) :
    account none n = some none ∧ c.queue = [] ∧ ∀ e ∈ D, ¬ Fills e := by
  obtain ⟨h1, h2⟩ := wait_timeout u t d hw hl hr
  have := session_account t ops s s' n h
  rw [kept_none hs, h1] at this
  exact ⟨this, h2⟩

/-! ## Concrete cases -/

/-- The answers to `prepare`. -/
def sigPrep : List ConStep := [⟨[], .mode 0x1F7⟩, ⟨[], .ok⟩, ⟨[], .ok⟩, ⟨[], .ok⟩]

/-- Ctrl-C twice and Ctrl-Break, which was not asked for, while text is written; then a read and a read
that times out although Ctrl-C arrives, because its handler could not wake up the reader; another read
gets the signal. -/
def sigSteps : List ConStep := sigPrep ++
  [⟨[.ctrl 0 true, .ctrl 0 true, .ctrl 1 true], .wrote 1⟩, ⟨[], .ok⟩, ⟨[], .ok⟩,
   ⟨[], .ok⟩, ⟨[.ctrl 0 false], .timeout⟩, ⟨[], .ok⟩, ⟨[.input .other], .ok⟩]

def sigOps : List SigOp := [.prepare catchInt, .write ['x'], .readEvent none, .readRaw 8 (some ⟨1, 0⟩),
  .readRawEvent 3 none]

example : (session demoTerm sigOps (demoSt sigSteps)).map (fun x => x.1.filter fun
      | .report _ => true
      | .ev (.ctrl _ _ _) => true
      | _ => false) =
    some [.ev (.ctrl 0 true true), .ev (.ctrl 0 true true), .ev (.ctrl 1 false false),
      .report .interrupt, .ev (.ctrl 0 true false), .report .interrupt] := by decide +kernel

example : AsksCtrl catchInt := by decide

/-- After the first three calls, and after the first two of them. -/
example : ((session demoTerm (sigOps.take 3) (demoSt sigSteps)).map fun x => account none x.1) =
    some (some none) := by decide +kernel
example : ((session demoTerm (sigOps.take 2) (demoSt sigSteps)).map fun x =>
    (account none x.1, decide (2 ≤ x.2.os.length))) = some (some (some .interrupt), true) := by
  decide +kernel

/-- A wait that times out: Ctrl-C arrives, but its handler fails to wake up the reader. -/
example : (match winWait demoTerm (some ⟨1, 5⟩)
      { demoSt [⟨[], .ok⟩, ⟨[.ctrl 0 false], .timeout⟩] with catchSet := 1 } with
    | .ok b s => !b && decide (s.log.length = 3) && runsB demoEnv 1 s.log { demoCon with handlers := 1 }
    | _ => false) = true := by decide +kernel

/-- A terminal opened on the console, prepared to report Ctrl-C, which was pressed and reported by
`read_event`: the state of the terminal and the console. -/
def Reported (s : WinSt) (c : Con) : Prop :=
  ∃ os n, session demoTerm [.prepare catchInt, .readEvent none] (demoSt os) = some (n, s) ∧
    account none n = some none ∧ .report .interrupt ∈ n ∧
    demoCon.Runs demoEnv 1 s.log ∧ demoCon.play demoEnv 1 s.log = some c

/-- A call in such a state, by evaluation. -/
def afterSig (os : List ConStep) (op : SigOp) : Option (Option Event × List InRec × List WEv) :=
  match session demoTerm [.prepare catchInt, .readEvent none]
      (demoSt (sigPrep ++ [⟨[.ctrl 0 true], .ok⟩, ⟨[], .ok⟩] ++ os)) with
  | some (n, s) =>
    if account none n = some none ∧ .report .interrupt ∈ n then
      match op.run demoTerm s with
      | .ok r s' =>
        let D := s'.log.drop s.log.length
        if s'.log = s.log ++ D then
          (checkPlay demoEnv 1 s.log demoCon).bind fun c =>
            if runsB demoEnv 1 D c then some (r, c.queue, D) else none
        else none
      | _ => none
    else none
  | none => none

theorem afterSig_sound {os : List ConStep} {op : SigOp} {r : Option Event} {q : List InRec} {D : List WEv}
    (h : afterSig os op = some (r, q, D)) : ∃ s c s', Reported s c ∧ op.run demoTerm s = .ok r s' ∧
      s'.log = s.log ++ D ∧ c.Runs demoEnv 1 D ∧ c.queue = q := by
  unfold afterSig at h
  generalize ho : sigPrep ++ [⟨[.ctrl 0 true], .ok⟩, ⟨[], .ok⟩] ++ os = os' at h
  cases hs : session demoTerm [.prepare catchInt, .readEvent none] (demoSt os') with
  | none => rw [hs] at h; cases h
  | some x =>
    obtain ⟨n, s⟩ := x
    rw [hs] at h
    dsimp only at h
    split at h
    · rename_i hn
      cases hr : op.run demoTerm s with
      | stop w => rw [hr] at h; cases h
      | err e s' => rw [hr] at h; cases h
      | ok r' s' =>
        rw [hr] at h
        dsimp only at h
        split at h
        · rename_i hl
          rw [Option.bind_eq_some_iff] at h
          obtain ⟨c, h1, h2⟩ := h
          split at h2
          · rename_i hD
            simp only [Option.some.injEq, Prod.mk.injEq] at h2
            obtain ⟨rfl, rfl, rfl⟩ := h2
            obtain ⟨g1, g2⟩ := checkPlay_sound _ _ _ h1
            exact ⟨s, c, s', ⟨os', n, hs, hn.1, hn.2, g1, g2⟩, hr, hl, runsB_sound _ _ hD, rfl⟩
          · cases h2
        · cases h
    · cases h

/-- **C51.** It is not the case that `read_raw` with a timeout asks the console for characters only if a
key was pressed: once a signal was reported, the record that was to wake up the reader may still be in
the queue, and `read_raw` calls `ReadConsole`, which does not return before a key is pressed. (The answer `.chars [97]` is one that comes when the key is pressed at last.) -/
theorem C51_read_raw_refuted : ∃ s c s' D, Reported s c ∧
    (SigOp.readRaw 4 (some ⟨0, 0⟩)).run demoTerm s = .ok (some (.raw 1)) s' ∧
    s'.log = s.log ++ (D ++ [.call (.readConsole 1 4) (.chars [97])]) ∧
    c.Runs demoEnv 1 (D ++ [.call (.readConsole 1 4) (.chars [97])]) ∧
    (∀ r ∈ c.queue, isPress r = false) ∧ ∀ e ∈ D, ¬ Fills e := by
  let os : List ConStep := [⟨[], .ok⟩, ⟨[], .ok⟩, ⟨[], .ok⟩, ⟨[], .chars [97]⟩]
  let D : List WEv := [.call .atomic .ok, .call (.wait 1 0) .ok, .call .atomic .ok]
  have h : afterSig os (.readRaw 4 (some ⟨0, 0⟩)) =
      some (some (.raw 1), [wakeRecord], D ++ [.call (.readConsole 1 4) (.chars [97])]) := by decide +kernel
  obtain ⟨s, c, s', h1, h2, h3, h4, h5⟩ := afterSig_sound h
  refine ⟨s, c, s', D, h1, h2, h3, h4, ?_, ?_⟩
  · intro r hr
    rw [h5, List.mem_singleton] at hr
    rw [hr]; rfl
  · intro e he
    simp only [D, List.mem_cons, List.not_mem_nil, or_false] at he
    rcases he with rfl | rfl | rfl <;> exact id

end Mortal
