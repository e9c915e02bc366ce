import Verif.Spec.Exact
import Verif.Props.BufferAttrs
import Verif.Props.Prepare
import Verif.Props.Timeout
import Verif.Props.WinPure

/-! # C16, C34, C40 and C44 without restrictions: what happens in the excluded cases -/

namespace Mortal
open Spec

/-! ## C16 -/

theorem writeStyled_attrs {env : UEnv} (henv : SpaceOk env) {b b' : Buf} {fg bg : Option Color}
    {st : Style} {s : List Char} {r : WRes} (e : b.writeStyled env fg bg st s = some (b', r)) :
    (b'.fg, b'.bg, b'.style) =
      if (b.writeStyled env fg bg st s).any (fun x => decide (x.2 = .oob)) then (fg, bg, st)
      else (none, none, 0#8) := by
  rw [e]
  unfold Buf.writeStyled at e
  cases e2 : ({ b with fg := fg, bg := bg, style := st } : Buf).writeStr env s with
  | none => rw [e2] at e; cases e
  | some x =>
    obtain ⟨b2, r2⟩ := x
    rw [e2] at e
    cases r2 with
    | ok => simp at e; obtain ⟨rfl, rfl⟩ := e; rfl
    | oob =>
      simp at e
      obtain ⟨rfl, rfl⟩ := e
      obtain ⟨-, -, h3, h4, h5⟩ := (wrote_writeStr henv.comb e2).frame
      rw [h3, h4, h5]
      rfl

/-- C16 for every history whatsoever: the attributes in force are those the attribute calls ask for,
with the one exception that a styled write that is cut off at the end of the screen leaves its own
attributes in force, and one positioned outside the screen has no effect. -/
theorem C16_attributes_exact (env : UEnv) (henv : SpaceOk env) (ops : List BufOp) (b b' : Buf)
    (e : runOps env ops b = some b') :
    (b'.fg, b'.bg, b'.style) = attrsThrough env b ops (b.fg, b.bg, b.style) := by
  induction ops generalizing b with
  | nil => rw [runOps, Option.some.injEq] at e; rw [e]; rfl
  | cons op ops ih =>
    rw [runOps] at e
    rw [attrsThrough]
    cases e1 : op.run env b with
    | none => rw [e1] at e; cases e
    | some b1 =>
      rw [e1] at e
      dsimp only
      rw [ih b1 e]
      congr 1
      cases op with
      | writeStyled fg bg st s =>
        simp only [BufOp.run, Option.map_eq_some_iff] at e1
        obtain ⟨⟨b2, r2⟩, e2, rfl⟩ := e1
        exact writeStyled_attrs henv e2
      | writeStyledAt pos fg bg st s =>
        simp only [BufOp.run, Option.map_eq_some_iff] at e1
        obtain ⟨⟨b2, r2⟩, e2, rfl⟩ := e1
        dsimp only [attrsCut]
        by_cases hin : pos.line < b.size.lines ∧ pos.column < b.size.columns
        · rw [if_pos hin]
          have hok : b.tryCursorAt pos = .ok := tryCursorAt_ok.mpr hin
          unfold Buf.writeStyledAt at e2 ⊢
          rw [hok] at e2 ⊢
          exact writeStyled_attrs henv e2
        · rw [if_neg hin]
          unfold Buf.writeStyledAt at e2
          split at e2
          · simp at e2; rw [← e2.1]
          · rename_i h
            exact absurd (tryCursorAt_ok.mp h) hin
      | _ =>
        have := C16_attributes_follow_partial env henv [_] b b1
          ⟨trivial, fun _ _ => trivial⟩ (by rw [runOps, e1]; rfl)
        exact this

/-- C16: a buffer starts with no attributes in force and every cell blank and plain, so what is in
force after any history from its creation depends on the calls of that history alone. -/
theorem C16_from_new (env : UEnv) (henv : SpaceOk env) (size : Size) (ops : List BufOp) (b' : Buf)
    (e : runOps env ops (Buf.new size) = some b') :
    (∀ c cell, cellAt (Buf.new size) c = some cell → cell = ⟨none, none, 0#8, [' ']⟩) ∧
    (b'.fg, b'.bg, b'.style) = attrsThrough env (Buf.new size) ops (none, none, 0#8) ∧
    (NoStyledOverflow env (Buf.new size) ops →
      (b'.fg, b'.bg, b'.style) = ops.foldl attrsAfter (none, none, 0#8)) := by
  refine ⟨fun c cell h => ?_, C16_attributes_exact env henv ops _ _ e,
    fun hs => C16_attributes_follow_partial env henv ops _ _ hs e⟩
  unfold cellAt at h
  obtain ⟨_, h⟩ := List.getElem?_eq_some_iff.mp h
  rw [← h]
  exact List.getElem_replicate ..

/-- A cut-off styled write, one outside the screen and a `clear_attributes`. -/
example : (runOps demoEnv [.writeStyled (some .red) none 1#8 ['a', 'b', 'c'],
      .writeStyledAt ⟨7, 0⟩ none none 0#8 ['x'], .setBg (some .blue)] (Buf.new ⟨1, 2⟩)).isSome ∧
    attrsThrough demoEnv (Buf.new ⟨1, 2⟩) [.writeStyled (some .red) none 1#8 ['a', 'b', 'c'],
      .writeStyledAt ⟨7, 0⟩ none none 0#8 ['x'], .setBg (some .blue)] (none, none, 0#8) =
      (some .red, some .blue, 1#8) := by decide

/-! ## C34 -/

/-- C34, exactly what is not put back: after a `prepare` and the matching `restore`, with anything
in between, the signals to report are those of the last configuration applied (`restore` leaves
them alone), and the device modes which the configuration uses are off, whatever they were before;
the other modes are as in between. -/
theorem C34_not_put_back (env : REnv) (cfg : PrepareConfig) (p : PrepareState) (s s1 s2 s3 : US)
    (hk : (env.w.db .keypadXmit).isSome → (env.w.db .keypadLocal).isSome)
    (h1 : prepare env cfg s = .ok p s1) (h3 : restore env p s2 = .ok () s3) :
    s1.report = cfg.reportSignals ∧ s3.report = s2.report ∧
      devModes s3.w.log = usedOff env cfg (devModes s2.w.log) := by
  obtain ⟨e1, e2⟩ := prepare_ok h1
  have e3 := restore_ok h3
  refine ⟨congrArg Core.report e1, congrArg Core.report e3, ?_⟩
  rw [core_log e3, e2]
  show devModes (s2.w.log ++ _ ++ _) = _
  unfold usedOff savedState
  dsimp only
  cases hm : (cfg.enableMouse && env.xterm) with
  | false =>
    cases hx : (cfg.enableKeypad && (env.w.db .keypadXmit).isSome) with
    | false => simp
    | true =>
      have := hk (by simp at hx; exact hx.2)
      rw [this]
      simp only [Bool.false_eq_true, if_false, List.append_nil, Bool.and_true, Bool.not_false,
        if_true, Bool.not_true, Bool.and_false]
      rw [devModes_snoc]; rfl
  | true =>
    cases hx : (cfg.enableKeypad && (env.w.db .keypadXmit).isSome) with
    | false =>
      simp only [Bool.false_eq_true, if_false, List.append_nil, Bool.and_true, Bool.not_false,
        if_true, Bool.not_true, Bool.and_false, Bool.false_and]
      rw [List.append_cons, devModes_snoc, devModes_snoc]; rfl
    | true =>
      have := hk (by simp at hx; exact hx.2)
      rw [this]
      simp only [Bool.and_true, if_true, Bool.not_true, Bool.and_false]
      rw [devModes_snoc, List.append_cons, devModes_snoc, devModes_snoc]; rfl

/-- C34: so, after a pair with no output in between, the device modes which the configuration uses
are off and the others are as before the pair. -/
theorem C34_modes_after (env : REnv) (cfg : PrepareConfig) (p : PrepareState) (s s1 s2 s3 : US)
    (hk : (env.w.db .keypadXmit).isSome → (env.w.db .keypadLocal).isSome)
    (h1 : prepare env cfg s = .ok p s1) (h2 : s2.w.log = s1.w.log)
    (h3 : restore env p s2 = .ok () s3) :
    devModes s3.w.log = usedOff env cfg (devModes s.w.log) := by
  rw [(C34_not_put_back env cfg p s s1 s2 s3 hk h1 h3).2.2, h2, core_log (prepare_ok h1).1]
  show usedOff env cfg (devModes (s.w.log ++ mouseCmds env cfg ++ keypadCmds env cfg)) = _
  unfold usedOff mouseCmds keypadCmds
  cases hm : (cfg.enableMouse && env.xterm) <;>
    cases hx : (cfg.enableKeypad && (env.w.db .keypadXmit).isSome) <;>
    cases ht : cfg.alwaysTrackMotion <;>
    simp only [Bool.false_eq_true, if_false, if_true, List.append_nil, Bool.and_true, Bool.not_false,
      Bool.not_true, Bool.and_false, List.append_cons _ (Out.text mouseOnText) (_ :: _),
      devModes_snoc] <;> rfl

/-- The inner pair of `C34_inner_disables_mouse`: all three modes were on and are off after it. -/
example : (env : REnv) → env = demoEnvR → ((env.w.db .keypadXmit).isSome →
      (env.w.db .keypadLocal).isSome) ∧
    usedOff env demoCfg ⟨true, true, true⟩ = ⟨false, false, false⟩ ∧
    usedOff env .default ⟨true, true, true⟩ = ⟨false, true, true⟩ := by
  intro env h
  subst h
  refine ⟨fun _ => by decide, by decide, by decide⟩

/-! ## C40 -/

/-- C40, on Windows for every timeout. Without overflow checks the wait is the length of the timeout
in milliseconds, modulo 2^32, and infinite exactly if that is 2^32 - 1. With overflow checks it is
the same or a panic, which comes exactly if the seconds in milliseconds do not fit 64 bits, or
their lower 32 bits and the rest of the milliseconds do not fit 32 bits. -/
theorem C40_windows_exact (d : Duration) (h : Valid d) :
    (asMillisRelease (some d)).toNat = millisOf d % 2 ^ 32 ∧
    (asMillisRelease (some d) = INFINITE ↔ millisOf d % 2 ^ 32 = 2 ^ 32 - 1) ∧
    (asMillis (some d) = none ↔
      2 ^ 64 ≤ d.secs * 1000 ∨ 2 ^ 32 ≤ d.secs * 1000 % 2 ^ 32 + d.nanos / 1000000) ∧
    (∀ v, asMillis (some d) = some v → v = asMillisRelease (some d)) := by
  have hm := millis_eq d
  unfold Duration.subsecMillis at hm
  have hd : d.nanos / 1000000 < 1000 := by have := h.2; omega
  have v : (asMillisRelease (some d)).toNat = millisOf d % 2 ^ 32 := by
    unfold asMillisRelease
    dsimp only
    rw [BitVec.toNat_add, BitVec.toNat_ofNat, BitVec.toNat_ofNat]
    omega
  have hi : INFINITE.toNat = 2 ^ 32 - 1 := by decide
  refine ⟨v, ⟨fun e => by rw [← v, e, hi], fun e => BitVec.eq_of_toNat_eq (by rw [v, e, hi])⟩,
    ?_, ?_⟩
  · unfold asMillis
    dsimp only
    rw [BitVec.toNat_ofNat, BitVec.toNat_ofNat]
    by_cases h1 : d.secs * 1000 < 2 ^ 64
    · rw [if_pos h1]
      by_cases h2 : d.secs * 1000 % 2 ^ 32 + d.nanos / 1000000 % 2 ^ 32 < 2 ^ 32
      · rw [if_pos h2]; simp; omega
      · rw [if_neg h2]; simp; omega
    · rw [if_neg h1]; simp; omega
  · intro w hw
    unfold asMillis at hw
    unfold asMillisRelease
    dsimp only at hw ⊢
    by_cases h1 : d.secs * 1000 < 2 ^ 64
    · rw [if_pos h1] at hw
      split at hw
      · cases hw; rw [Nat.mod_eq_of_lt h1]
      · cases hw
    · rw [if_neg h1] at hw; cases hw

/-- The timeouts of `C40_windows_wraps`. -/
example : Valid ⟨4294967, 295000000⟩ ∧ millisOf ⟨4294967, 295000000⟩ % 2 ^ 32 = 2 ^ 32 - 1 ∧
    Valid ⟨4294968, 0⟩ ∧ millisOf ⟨4294968, 0⟩ % 2 ^ 32 = 704 := by
  refine ⟨⟨by decide, by decide⟩, by decide, ⟨by decide, by decide⟩, by decide⟩

/-! ## C44 -/

/-- C44, exactly when a program that follows the events still knows the buttons after a record: if
and only if at most one button has changed (or the record is about a wheel). -/
theorem C44_known_iff (r : WReader) (m : MouseRec) :
    ButtonsKnown r [m] ↔ (m.flags.getLsbD 2 = true ∨
      ∀ i j, r.prev.getLsbD i ≠ m.buttons.getLsbD i → r.prev.getLsbD j ≠ m.buttons.getLsbD j →
        i = j) := by
  constructor
  · intro h
    by_cases hw : m.flags.getLsbD 2 = true
    · exact .inl hw
    right
    have hw : m.flags.getLsbD 2 = false := by simpa using hw
    by_cases hne : r.prev = m.buttons
    · intro i j hi; rw [hne] at hi; exact absurd rfl hi
    obtain ⟨k, hk, e⟩ := winMouseInput_changed r m hw hne
    have low : ∀ j, r.prev.getLsbD j ≠ m.buttons.getLsbD j → j = k := by
      intro j hj
      by_contra hjk
      have hj32 : j < 32 := by
        by_contra hc
        exact hj (by rw [BitVec.getLsbD_of_ge _ _ (by omega), BitVec.getLsbD_of_ge _ _ (by omega)])
      classical
      obtain ⟨is, r', h1, h2⟩ := h (fun b => decide (buttonsIn r.prev b)) (fun b => by simp)
      rw [readMice, e] at h1
      cases h1
      have h2 := h2 (buttonOf j)
      have hst : stateAfter r.prev [m] = m.buttons := by
        show (if m.flags.getLsbD 2 then r.prev else m.buttons) = _
        rw [hw]; rfl
      rw [hst, buttonsIn_buttonOf _ _ hj32] at h2
      have hh : heldAfter (fun b => decide (buttonsIn r.prev b)) [changeOf m.buttons k] (buttonOf j) =
          decide (buttonsIn r.prev (buttonOf j)) := by
        unfold changeOf
        have : buttonOf j ≠ buttonOf k := fun h => hjk (buttonOf_inj h)
        split <;> simp [heldAfter, this]
      have hh' : heldAfter (fun b => decide (buttonsIn r.prev b))
          ((some (changeOf m.buttons k)).toList ++ []) (buttonOf j) =
          decide (buttonsIn r.prev (buttonOf j)) := hh
      rw [hh', decide_eq_true_iff, buttonsIn_buttonOf _ _ hj32] at h2
      apply hj
      cases hx : r.prev.getLsbD j <;> cases hy : m.buttons.getLsbD j <;> simp_all
    intro i j hi hj
    rw [low i hi, low j hj]
  · intro h
    refine C44_history_partial r [m] ?_
    unfold OneByOne
    split
    · exact trivial
    · rename_i hw
      rcases h with h | h
      · exact absurd h hw
      · exact ⟨h, trivial⟩

/-- Left and right pressed at once: not known; one after the other: known. -/
example : (¬ ButtonsKnown ⟨false, 0⟩ [⟨⟨0, 0⟩, 3, 0, 0⟩]) ∧ ButtonsKnown ⟨false, 1⟩ [⟨⟨0, 0⟩, 3, 0, 0⟩] := by
  constructor
  · rw [C44_known_iff]
    rintro (h | h)
    · exact absurd h (by decide)
    · exact absurd (h 0 1 (by decide) (by decide)) (by decide)
  · rw [C44_known_iff]
    right
    have key : ∀ i, (1#32).getLsbD i ≠ (3#32).getLsbD i → i = 1 := by
      intro i hi
      by_cases h : i < 32
      · have : ∀ i < 32, (1#32).getLsbD i ≠ (3#32).getLsbD i → i = 1 := by decide
        exact this i h hi
      · exact absurd (by rw [BitVec.getLsbD_of_ge _ _ (by omega), BitVec.getLsbD_of_ge _ _ (by omega)]) hi
    intro i j hi hj
    rw [key i hi, key j hj]

end Mortal
