import Verif.Lemmas.WinAttr
import Verif.Lemmas.Screen

/-! # Moving the cursor and erasing on a Windows console -/

namespace Mortal
open Spec

variable {u : UEnv} {k : Nat}

/-- Code that begins by reading the terminal's state. -/
theorem Does.getAt {α : Type} {c0 : Con} {s0 : WinSt} {f : WinSt → WM α}
    {Q : α → Con → WinSt → Prop} {E : IoErr → Con → WinSt → Prop} (hg : ∀ a, Grows (f a))
    (h : ∀ a, a.outH = s0.outH → a.theme = s0.theme → Does u k (CAt c0 s0) (f a) Q E) :
    Does u k (CAt c0 s0) (SM.get >>= f) Q E := by
  refine Does.bind (R := fun a c s => (a.outH = s0.outH ∧ a.theme = s0.theme) ∧ CAt c0 s0 c s) ?_
    fun a => ?_
  · refine Does.mono Does.get (fun _ _ h => h) ?_ (fun _ _ _ h => h)
    rintro a c s ⟨rfl, h⟩
    exact ⟨⟨h.2.outH, h.2.theme⟩, h⟩
  · exact Does.assume (hg a) fun e => h a e.1 e.2

/-- Code that begins with a computation that may panic. -/
theorem Does.bindPanics {α β : Type} {P : Con → WinSt → Prop} {x : Panics β} {f : β → WM α}
    {Q : α → Con → WinSt → Prop} {E : IoErr → Con → WinSt → Prop} (hg : ∀ a, Grows (f a))
    (h : ∀ a, x = some a → Does u k P (f a) Q E) : Does u k P (SM.ofPanics x >>= f) Q E :=
  Does.bind (Does.ofPanics x) fun a => Does.assume (hg a) (h a)

theorem CAt.trans {c0 c1 c : Con} {s0 s1 s : WinSt} (h : CAt c0 s0 c1 s1) (h' : CAt c1 s1 c s) :
    CAt c0 s0 c s := by
  obtain ⟨⟨q, rfl⟩, h1⟩ := h
  obtain ⟨⟨q', rfl⟩, h2⟩ := h'
  exact ⟨⟨q', rfl⟩, h1.trans h2⟩

/-- Code made of calls that only add to the record. -/
macro "grows_tac" : tactic =>
  `(tactic| repeat' (first
    | exact Grows.pure _ | exact grows_get | exact grows_ofPanics _ | exact grows_boolCall _
    | exact grows_throw _ | exact grows_halt _ | exact grows_consoleInfo _
    | exact grows_conCall _ | exact grows_modify (fun _ => rfl)
    | refine Grows.bind ?_ fun _ => ?_ | split))

theorem grows_moveAbs (p : Coord) : Grows (moveAbs p) := by unfold moveAbs; grows_tac

theorem grows_clearArea (t : WTerm) (start : Coord) (n : BitVec 32) :
    Grows (clearArea t start n) := by unfold clearArea; grows_tac

theorem grows_clearScreen (t : WTerm) : Grows (winClearScreen t) := by
  unfold winClearScreen clearArea moveAbs moveWindow SM.when; grows_tac

/-- The buffer with its cursor moved. -/
def Spec.OutBuf.moved (o : OutBuf) (p : Cursor) : OutBuf :=
  { o with glyph := { o.glyph with cur := some p, last := none } }

/-- The buffer with some cells erased. -/
def Spec.OutBuf.erased (o : OutBuf) (w : BitVec 16) (n : Nat) (start : Coord) : OutBuf :=
  (o.fillAttr w n start).fillChar ' ' n start

theorem does_moveAbs (c0 : Con) (s0 : WinSt) (p : Coord) :
    Does u k (CAt c0 s0) (moveAbs p)
      (fun _ c s => ∃ o, c0.outs s0.outH = some o ∧ CoordIn p o.glyph.size ∧
        CAt (c0.setOut s0.outH (o.moved (coordToCursor p))) s0 c s)
      (fun _ => CAt c0 s0) := by
  unfold moveAbs
  refine Does.getAt (fun _ => grows_boolCall _) fun a e _ => ?_
  rw [e]
  refine Does.mono (does_bool c0 s0 (E := fun _ => CAt c0 s0) (fun c s h => h) _ (by bool_call)
    (fun c => ∃ o, c0.outs s0.outH = some o ∧ CoordIn p o.glyph.size ∧
      c = c0.setOut s0.outH (o.moved (coordToCursor p))) ?_)
    (fun _ _ h => h) ?_ (fun _ _ _ h => h)
  · rintro q (pos | ⟨-, o, ho, hp⟩)
    · cases pos
    · refine ⟨_, q, ⟨o, ho, hp, rfl⟩, ?_⟩
      simp only [Con.step]
      rw [onOut_some (c := { c0 with queue := q }) ho]
      rfl
  · rintro a c s ⟨c1, ⟨o, ho, hp, rfl⟩, h⟩; exact ⟨o, ho, hp, h⟩

theorem does_clearArea (hsp : u.w ' ' = 1) (c0 : Con) (s0 : WinSt) (t : WTerm) (start : Coord)
    (n : BitVec 32) :
    Does u k (CAt c0 s0) (clearArea t start n)
      (fun _ c s => ∃ o, c0.outs s0.outH = some o ∧ CoordIn start o.glyph.size ∧
        CAt (c0.setOut s0.outH (OutBuf.erased o t.defAttrs n.toNat start)) s0 c s)
      (fun _ c s => CAt c0 s0 c s ∨ ∃ o, c0.outs s0.outH = some o ∧ CoordIn start o.glyph.size ∧
        CAt (c0.setOut s0.outH (o.fillAttr t.defAttrs n.toNat start)) s0 c s) := by
  unfold clearArea
  refine Does.getAt (fun _ => Grows.bind (grows_boolCall _) fun _ => grows_boolCall _)
    fun a e _ => ?_
  rw [e]
  dsimp only
  refine Does.bind (R := fun _ c s => ∃ c1, (∃ o, c0.outs s0.outH = some o ∧
      CoordIn start o.glyph.size ∧
      c1 = c0.setOut s0.outH (o.fillAttr t.defAttrs n.toNat start)) ∧ CAt c1 s0 c s)
    (does_bool c0 s0 (fun c s h => Or.inl h) _ (by bool_call) _ ?_) fun _ => ?_
  · rintro q (pos | ⟨-, o, ho, hp⟩)
    · cases pos
    · refine ⟨_, q, ⟨o, ho, hp, rfl⟩, ?_⟩
      simp only [Con.step]
      rw [onOut_some (c := { c0 with queue := q }) ho]
      rfl
  · refine Does.at ?_ (grows_boolCall _)
    rintro c1 s1 ⟨c1', ⟨o, ho, hp, rfl⟩, hc⟩
    let o1 := o.fillAttr t.defAttrs n.toNat start
    have ho1 : (c0.setOut s0.outH o1).outs s0.outH = some o1 := by simp [Con.setOut]
    refine Does.mono (does_bool (c0.setOut s0.outH o1) s0
      (E := fun _ => CAt (c0.setOut s0.outH o1) s0) (fun c s h => h) _
      (by bool_call) (fun c => c = c0.setOut s0.outH (OutBuf.erased o t.defAttrs n.toNat start)) ?_)
      (fun c s h => hc.trans h) ?_ ?_
    · rintro q (pos | ⟨-, -⟩)
      · cases pos
      · refine ⟨_, q, rfl, ?_⟩
        simp only [Con.step]
        rw [onOut_some (c := { c0.setOut s0.outH o1 with queue := q }) ho1, if_pos hsp]
        simp only [Option.map_some]
        rw [setOut_queue, setOut_setOut]
        rfl
    · rintro _ c s ⟨c1, rfl, h⟩; exact ⟨o, ho, hp, h⟩
    · intro _ c s h
      exact Or.inr ⟨o, ho, hp, h⟩

/-- A size a console can have. -/
def SmallSize (z : Size) : Prop := z.lines ≤ 32767 ∧ z.columns ≤ 32767

theorem coord_at {p : Cursor} {z : Size} (hz : SmallSize z) (h : InBounds p z) :
    coordToCursor (atCoord p) = p ∧ cursorToCoord p = atCoord p := by
  obtain ⟨h1, h2⟩ := h
  obtain ⟨h3, h4⟩ := hz
  unfold coordToCursor cursorToCoord atCoord shortToUsize toShort
  constructor
  · rw [cursor_ext]; dsimp only; omega
  · rw [if_neg (by omega), if_neg (by omega)]

theorem does_moveCursor (c0 : Con) (s0 : WinSt) (p : Cursor) (o : OutBuf)
    (ho : c0.outs s0.outH = some o) (hz : SmallSize o.glyph.size) (hp : InBounds p o.glyph.size) :
    Does u k (CAt c0 s0) (winMoveCursor p)
      (fun _ => CAt (c0.setOut s0.outH (OutBuf.moved o p)) s0) (fun _ => CAt c0 s0) := by
  unfold winMoveCursor
  refine Does.mono (does_moveAbs c0 s0 _) (fun _ _ h => h) ?_ (fun _ _ _ h => h)
  rintro _ c s ⟨o', h1, -, h2⟩
  rw [ho] at h1; cases h1
  rw [(coord_at hz hp).2, (coord_at hz hp).1] at h2
  exact h2

/-- The window covers all lines of the buffer, from the first column on. -/
def FullWindow (o : OutBuf) : Prop :=
  o.window.left = 0 ∧ o.window.top = 0 ∧ o.window.bottom + 1 = o.glyph.size.lines

/-- The buffer erased, the cursor in its upper left corner. -/
def Spec.OutBuf.wiped (o : OutBuf) (w : BitVec 16) : OutBuf :=
  { o with
    glyph := { o.glyph with cell := fun _ => .narrow [' '] (), cur := some ⟨0, 0⟩, last := none }
    attr := fun _ => w }

theorem swept_all {z : Size} (q : Cursor) :
    Swept z ⟨0, 0⟩ (z.columns * z.lines) q := by
  unfold Swept
  by_cases h : InBounds q z
  · right
    have e : numOf z (coordToCursor ⟨0, 0⟩) = 0 := by
      unfold numOf coordToCursor shortToUsize; simp
    have := numOf_lt h
    rw [Nat.mul_comm] at this
    rw [e]
    omega
  · exact Or.inl h

theorem erased_all (o : OutBuf) (w : BitVec 16) {z : Size} (hz : z = o.glyph.size) :
    OutBuf.moved (OutBuf.erased o w (z.columns * z.lines) ⟨0, 0⟩) ⟨0, 0⟩ = OutBuf.wiped o w := by
  subst hz
  unfold OutBuf.erased OutBuf.moved OutBuf.wiped OutBuf.fillAttr OutBuf.fillChar
  simp only [swept_all, if_true]

theorem wholeCount_eq {z : Size} (hz : SmallSize z) :
    wholeCount (sizeCoord z) = some (BitVec.ofNat 32 (z.columns * z.lines)) ∧
      (BitVec.ofNat 32 (z.columns * z.lines)).toNat = z.columns * z.lines := by
  obtain ⟨h1, h2⟩ := hz
  have e : ∀ n : Nat, n ≤ 32767 → (shortToDword (n : Int)).toNat = n := by
    intro n hn
    unfold shortToDword
    rw [BitVec.toNat_ofInt]
    omega
  have h3 : z.columns * z.lines ≤ 32767 * 32767 := Nat.mul_le_mul h2 h1
  unfold wholeCount sizeCoord dword
  dsimp only
  rw [e _ h1, e _ h2, if_pos (by omega)]
  exact ⟨rfl, by rw [BitVec.toNat_ofNat]; omega⟩

/-- The buffer when erasing it did not come to its end. -/
def HalfWiped (o o1 : OutBuf) : Prop :=
  (o1.glyph = o.glyph ∨ o1.glyph = { o.glyph with cell := fun _ => .narrow [' '] () }) ∧
  o1.word = o.word ∧ o1.pend = o.pend ∧ o1.window = o.window

/-- `clear_screen`, when the window covers the whole buffer. -/
theorem does_clearScreen (hsp : u.w ' ' = 1) (c0 : Con) (s0 : WinSt) (t : WTerm) (o : OutBuf)
    (ho : c0.outs s0.outH = some o) (hz : SmallSize o.glyph.size) (hw : FullWindow o) :
    Does u k (CAt c0 s0) (winClearScreen t)
      (fun _ => CAt (c0.setOut s0.outH (OutBuf.wiped o t.defAttrs)) s0)
      (fun _ c s => ∃ o1, HalfWiped o o1 ∧ CAt (c0.setOut s0.outH o1) s0 c s) := by
  have hself : HalfWiped o o := ⟨Or.inl rfl, rfl, rfl, rfl⟩
  unfold winClearScreen
  refine Does.getAt (by unfold clearArea moveAbs moveWindow SM.when; intro _; grows_tac) fun a e _ => ?_
  rw [e]
  dsimp only
  refine Does.bind (does_info c0 s0 (fun c s h => ⟨o, hself, by rw [setOut_self ho]; exact h⟩)
    s0.outH) fun i => ?_
  refine Does.assume (by unfold clearArea moveAbs moveWindow SM.when; grows_tac) ?_
  rintro ⟨o', h1, hi⟩
  rw [ho] at h1; cases h1
  obtain ⟨hi1, -, -, -, hi5⟩ := hi
  obtain ⟨w1, w2, w3⟩ := hw
  have hlines : i.size.y = o.glyph.size.lines := by rw [hi1]; rfl
  have e1 : short (i.window.bottom - i.window.top) = some (o.glyph.size.lines - 1 : Int) := by
    unfold short
    rw [hi5, w2]
    have := hz.1
    rw [if_pos (by unfold IsShort; omega)]
    congr 1; omega
  have e2 : short ((o.glyph.size.lines - 1 : Int) + 1) = some (o.glyph.size.lines : Int) := by
    unfold short
    have := hz.1
    rw [if_pos (by unfold IsShort; omega)]
    congr 1; omega
  rw [e1]
  refine Does.bindPanics (by unfold clearArea moveAbs moveWindow SM.when; intro _; grows_tac)
    fun ht eht => ?_
  cases eht
  rw [e2]
  refine Does.bindPanics (by unfold clearArea moveAbs moveWindow SM.when; intro _; grows_tac)
    fun ht eht => ?_
  cases eht
  rw [if_pos hlines.symm, hi1, (wholeCount_eq hz).1]
  refine Does.bindPanics (fun _ => Grows.bind (grows_clearArea _ _ _) fun _ => grows_moveAbs _)
    fun n hn => ?_
  cases hn
  refine Does.bind (Does.mono (does_clearArea hsp c0 s0 t _ _) (fun _ _ h => h) (fun _ _ _ h => h)
    ?_) fun _ => ?_
  · rintro _ c s (h | ⟨o', h1, -, h⟩)
    · exact ⟨o, hself, by rw [setOut_self ho]; exact h⟩
    · rw [ho] at h1; cases h1
      refine ⟨_, ?_, h⟩
      exact ⟨Or.inl rfl, rfl, rfl, rfl⟩
  refine Does.at ?_ (grows_moveAbs _)
  rintro c1 s1 ⟨o', h1, -, ⟨q1, rfl⟩, h2⟩
  rw [ho] at h1; cases h1
  refine Does.mono (does_moveAbs _ s1 _) (fun _ _ h => h) ?_ ?_
  rotate_left
  · rintro _ c s ⟨⟨q, rfl⟩, h⟩
    refine ⟨OutBuf.erased o t.defAttrs _ ⟨0, 0⟩, ?_, ⟨q, rfl⟩, h2.trans h⟩
    refine ⟨Or.inr ?_, rfl, rfl, rfl⟩
    rw [(wholeCount_eq hz).2]
    unfold OutBuf.erased OutBuf.fillAttr OutBuf.fillChar
    simp only [swept_all, if_true]
  rintro _ c s ⟨o', h3, -, h4⟩
  rw [h2.outH] at h3 h4
  have h3 : (c0.setOut s0.outH _).outs s0.outH = some o' := h3
  rw [setOut_outs] at h3
  cases h3
  rw [hi5, w1, w2, show coordToCursor ⟨0, 0⟩ = ⟨0, 0⟩ from rfl, (wholeCount_eq hz).2,
    erased_all o t.defAttrs rfl, setOut_queue, setOut_setOut] at h4
  obtain ⟨⟨q, rfl⟩, h5⟩ := h4
  exact ⟨⟨q, rfl⟩, h2.trans h5⟩

end Mortal
