import Verif.Lemmas.Win
import Verif.Spec.WinShow

/-! # Checking a record of calls against a given console by evaluation -/

namespace Mortal
open Spec

/-- A sufficient condition for `CoordIn`. -/
def coordInB (p : Coord) (z : Size) : Bool :=
  decide (0 ≤ p.x ∧ p.x < z.columns ∧ 0 ≤ p.y ∧ p.y < z.lines)

theorem coordInB_sound {p : Coord} {z : Size} (h : coordInB p z = true) : CoordIn p z := by
  unfold coordInB at h
  rw [decide_eq_true_eq] at h
  obtain ⟨h1, h2, h3, h4⟩ := h
  refine ⟨⟨p.y.toNat, p.x.toNat⟩, ⟨?_, ?_⟩, ?_⟩
  · show p.y.toNat < _; omega
  · show p.x.toNat < _; omega
  · obtain ⟨px, py⟩ := p
    show Coord.mk _ _ = Coord.mk _ _
    dsimp only at *
    congr 1 <;> omega

/-- A sufficient condition for `Tells`. -/
def tellsB (o : OutBuf) (i : Info) : Bool :=
  i.size == sizeCoord o.glyph.size && coordInB i.cursor o.glyph.size &&
  (match o.glyph.cur with
    | some p => i.cursor == atCoord p
    | none => true) && i.attrs == o.word && i.window == o.window

theorem tellsB_sound {o : OutBuf} {i : Info} (h : tellsB o i = true) : o.Tells i := by
  unfold tellsB at h
  simp only [Bool.and_eq_true, beq_iff_eq] at h
  obtain ⟨⟨⟨⟨h1, h2⟩, h3⟩, h4⟩, h5⟩ := h
  refine ⟨h1, coordInB_sound h2, fun p hp => ?_, h4, h5⟩
  rw [hp] at h3
  simpa using h3

/-- A sufficient condition for a call and its answer to be possible. -/
def possibleB (k : Nat) (c : Con) : WEv → Bool
  | .input _ => true
  | .call (.setCursorPos h p) .ok =>
    match c.outs h with
    | some o => coordInB p o.glyph.size
    | none => false
  | .call (.setCursorPos _ _) .fail => true
  | .call (.setAttr h _) .ok => (c.outs h).isSome
  | .call (.setAttr _ _) .fail => true
  | .call (.write h us) (.wrote n) => (c.outs h).isSome && decide (n ≤ us.length)
  | .call (.write _ _) .fail => true
  | .call (.getInfo h) (.info i) =>
    match c.outs h with
    | some o => tellsB o i
    | none => false
  | .call (.setWindow h r) .ok =>
    match c.outs h with
    | some o => decide (0 ≤ r.left ∧ r.left ≤ r.right ∧ r.right < o.glyph.size.columns ∧
        0 ≤ r.top ∧ r.top ≤ r.bottom ∧ r.bottom < o.glyph.size.lines)
    | none => false
  | .call (.fillAttr h _ _ p) .ok =>
    match c.outs h with
    | some o => coordInB p o.glyph.size
    | none => false
  | .call (.fillChar h _ _ p) .ok =>
    match c.outs h with
    | some o => coordInB p o.glyph.size
    | none => false
  | .call .create (.handle h) => decide (h ≠ 0 ∧ h ≠ invalidHandle ∧ h ≠ k) &&
    (c.outs h).isNone && (c.outs c.active).isSome
  | .call (.setBufSize h z) .ok =>
    match c.outs h with
    | some o => decide (0 ≤ o.window.left ∧ o.window.left ≤ o.window.right ∧
        o.window.right < (coordToSize z).columns ∧ 0 ≤ o.window.top ∧ o.window.top ≤ o.window.bottom ∧
        o.window.bottom < (coordToSize z).lines)
    | none => false
  | .call (.setActive h) .ok => (c.outs h).isSome
  | .call (.getMode h) (.mode m) => if h = k then m == c.inMode else
    match c.outs h with
    | some o => m == o.mode
    | none => false
  | .call (.setMode h _) .ok => decide (h = k) || (c.outs h).isSome
  | .call (.scroll h _ _) .ok => (c.outs h).isSome
  | .call (.setCursorInfo h _ _) .ok => (c.outs h).isSome
  | .ctrl _ _ _ => decide (0 < c.handlers)
  | .call .atomic _ => true
  | .call (.setCtrlHandler add) .ok => add || decide (0 < c.handlers)
  | .call (.wait h _) .ok => decide (h = k) && !c.queue.isEmpty
  | .call (.wait h ms) .timeout => decide (h = k) && c.queue.isEmpty && decide (ms ≠ 0xFFFFFFFF)
  | .call (.readInput h len) (.recs l) =>
    decide (h = k ∧ l <+: c.queue ∧ l.length ≤ len.toNat ∧ l ≠ [])
  | .call (.readConsole h len) (.chars l) => decide (h = k ∧ l.length ≤ len.toNat)
  | _ => false

theorem possibleB_sound {k : Nat} {c : Con} {e : WEv} (h : possibleB k c e = true) : c.Possible k e := by
  unfold possibleB at h
  split at h
  case h_1 => trivial
  case h_2 =>
    split at h
    · rename_i o ho; exact Or.inr ⟨rfl, o, ho, coordInB_sound h⟩
    · cases h
  case h_3 => exact Or.inl rfl
  case h_4 => exact Or.inr ⟨rfl, Option.isSome_iff_exists.mp h⟩
  case h_5 => exact Or.inl rfl
  case h_6 =>
    rw [Bool.and_eq_true, decide_eq_true_eq] at h
    obtain ⟨o, ho⟩ := Option.isSome_iff_exists.mp h.1
    exact Or.inr ⟨o, _, ho, h.2, rfl⟩
  case h_7 => exact Or.inl rfl
  case h_8 =>
    split at h
    · rename_i o ho; exact Or.inr ⟨o, _, ho, tellsB_sound h, rfl⟩
    · cases h
  case h_9 =>
    split at h
    · rename_i o ho
      rw [decide_eq_true_eq] at h
      exact Or.inr ⟨rfl, o, ho, h⟩
    · cases h
  case h_10 =>
    split at h
    · rename_i o ho; exact Or.inr ⟨rfl, o, ho, coordInB_sound h⟩
    · cases h
  case h_11 =>
    split at h
    · rename_i o ho; exact Or.inr ⟨rfl, o, ho, coordInB_sound h⟩
    · cases h
  case h_12 =>
    simp only [Bool.and_eq_true, decide_eq_true_eq, Option.isNone_iff_eq_none] at h
    exact Or.inr ⟨_, rfl, h.1.1.1, h.1.1.2.1, h.1.1.2.2, h.1.2, Option.isSome_iff_exists.mp h.2⟩
  case h_13 =>
    split at h
    · rename_i o ho
      rw [decide_eq_true_eq] at h
      exact Or.inr ⟨rfl, o, ho, h⟩
    · cases h
  case h_14 => exact Or.inr ⟨rfl, Option.isSome_iff_exists.mp h⟩
  case h_15 =>
    split at h
    · rename_i e
      exact Or.inr (Or.inl ⟨e, by rw [beq_iff_eq.mp h]⟩)
    · rename_i e
      split at h
      · rename_i o ho
        exact Or.inr (Or.inr ⟨e, o, ho, by rw [beq_iff_eq.mp h]⟩)
      · cases h
  case h_16 =>
    rw [Bool.or_eq_true, decide_eq_true_eq] at h
    exact Or.inr ⟨rfl, h.imp id Option.isSome_iff_exists.mp⟩
  case h_17 => exact Or.inr ⟨rfl, Option.isSome_iff_exists.mp h⟩
  case h_18 => exact Or.inr ⟨rfl, Option.isSome_iff_exists.mp h⟩
  case h_19 => rw [decide_eq_true_eq] at h; exact h
  case h_20 => trivial
  case h_21 =>
    rw [Bool.or_eq_true, decide_eq_true_eq] at h
    exact Or.inr ⟨rfl, h⟩
  case h_22 =>
    rw [Bool.and_eq_true, decide_eq_true_eq, Bool.not_eq_true', List.isEmpty_eq_false_iff] at h
    exact Or.inr (Or.inl ⟨rfl, h.1, h.2⟩)
  case h_23 =>
    rw [Bool.and_eq_true, Bool.and_eq_true, decide_eq_true_eq, decide_eq_true_eq, List.isEmpty_iff] at h
    exact Or.inr (Or.inr ⟨rfl, h.1.1, h.1.2, h.2⟩)
  case h_24 =>
    rw [decide_eq_true_eq] at h
    exact Or.inr ⟨_, rfl, h⟩
  case h_25 =>
    rw [decide_eq_true_eq] at h
    exact Or.inr ⟨_, rfl, h⟩
  case h_26 => cases h

/-- The console after a record, if the record passes the check. -/
def checkPlay (u : UEnv) (k : Nat) : List WEv → Con → Option Con
  | [], c => some c
  | e :: l, c => if possibleB k c e then (c.step u k e).bind (checkPlay u k l) else none

theorem checkPlay_sound {u : UEnv} {k : Nat} : ∀ (l : List WEv) (c c' : Con),
    checkPlay u k l c = some c' → c.Runs u k l ∧ c.play u k l = some c'
  | [], c, c', h => ⟨trivial, h⟩
  | e :: l, c, c', h => by
    unfold checkPlay at h
    split at h
    · rename_i hb
      rw [Option.bind_eq_some_iff] at h
      obtain ⟨c1, h1, h2⟩ := h
      obtain ⟨g1, g2⟩ := checkPlay_sound l c1 c' h2
      refine ⟨⟨possibleB_sound hb, fun c2 h3 => ?_⟩, ?_⟩
      · rw [h1, Option.some.injEq] at h3
        rw [← h3]; exact g1
      · show (c.step u k e).bind _ = _
        rw [h1]; exact g2
    · cases h

/-- May everything in the record happen? -/
def runsB (u : UEnv) (k : Nat) : List WEv → Con → Bool
  | [], _ => true
  | e :: l, c => possibleB k c e &&
    match c.step u k e with
    | some c' => runsB u k l c'
    | none => true

theorem runsB_sound {u : UEnv} {k : Nat} : ∀ (l : List WEv) (c : Con), runsB u k l c = true →
    c.Runs u k l
  | [], _, _ => trivial
  | e :: l, c, h => by
    unfold runsB at h
    rw [Bool.and_eq_true] at h
    refine ⟨possibleB_sound h.1, fun c' hc => runsB_sound l c' ?_⟩
    have := h.2
    rw [hc] at this
    exact this

/-- A step, by evaluation. -/
def stepW (u : UEnv) (t : WTerm) (x : WSess) : WinStep → Option WSess
  | .draw op => (op.run u x.s.buf).map fun b => { x with s := { x.s with buf := b } }
  | .refresh =>
    match wsRefresh u t x.s with
    | .ok () s =>
      let D := s.w.log.drop x.s.w.log.length
      if s.w.log = x.s.w.log ++ D then (checkPlay u t.inH D x.c).map fun c => ⟨s, c⟩ else none
    | _ => none
  | .resized size o =>
    match wsUpdateSize size x.s, x.c.outs x.s.w.outH with
    | .ok () s, some o0 =>
      if o.glyph.size = size ∧ o.word = o0.word ∧ o.pend = o0.pend then
        some ⟨s, x.c.setOut x.s.w.outH o⟩
      else none
    | _, _ => none
  | .other => some x

theorem stepW_sound {u : UEnv} {t : WTerm} {x y : WSess} {st : WinStep} (h : stepW u t x st = some y) :
    st.To u t x y := by
  cases st with
  | draw op =>
    simp only [stepW, Option.map_eq_some_iff] at h
    obtain ⟨b, h1, h2⟩ := h
    exact ⟨b, h1, h2.symm⟩
  | refresh =>
    simp only [stepW] at h
    split at h
    · rename_i s e
      split at h
      · rename_i hl
        rw [Option.map_eq_some_iff] at h
        obtain ⟨c, h1, rfl⟩ := h
        obtain ⟨g1, g2⟩ := checkPlay_sound _ _ _ h1
        exact ⟨e, _, hl, g1, g2⟩
      · cases h
    · cases h
  | resized z o =>
    simp only [stepW] at h
    split at h
    · rename_i s o0 e1 e2
      split at h
      · rename_i hc
        cases h
        exact ⟨e1, rfl, hc.1, o0, e2, hc.2.1, hc.2.2⟩
      · cases h
    · cases h
  | other =>
    cases h
    exact ⟨rfl, rfl, rfl, rfl, rfl⟩

/-- A session, by evaluation. -/
def pathW (u : UEnv) (t : WTerm) : List WinStep → WSess → Option WSess
  | [], x => some x
  | st :: l, x => (stepW u t x st).bind (pathW u t l)

theorem pathW_sound {u : UEnv} {t : WTerm} : ∀ (l : List WinStep) (x y : WSess),
    pathW u t l x = some y → WinStep.Path u t l x y
  | [], x, y, h => (Option.some.inj h).symm
  | st :: l, x, y, h => by
    unfold pathW at h
    rw [Option.bind_eq_some_iff] at h
    obtain ⟨x', h1, h2⟩ := h
    exact ⟨x', stepW_sound h1, pathW_sound l x' y h2⟩

theorem stepW_unique {u : UEnv} {t : WTerm} {x y : WSess} {op : BufOp}
    (h : (WinStep.draw op).To u t x y) : stepW u t x (.draw op) = some y := by
  obtain ⟨b, h1, rfl⟩ := h
  simp only [stepW, h1, Option.map_some]

end Mortal
