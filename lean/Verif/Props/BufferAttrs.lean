import Verif.Lemmas.BufferAttrs

/-! # C16: drawn cells carry the attributes in force -/

namespace Mortal
open Spec

/-- C16: the attributes in force after any history of drawing calls and resizes are those the
attribute calls ask for; a styled write leaves none set. Partial: restricted to histories in which
no styled write runs past the end of the screen (see `C16_overflow_leaks`) or is positioned outside
the screen (such a call changes nothing, C12). -/
theorem C16_attributes_follow_partial (env : UEnv) (henv : SpaceOk env) (ops : List BufOp)
    (b b' : Buf) (hs : NoStyledOverflow env b ops) (e : runOps env ops b = some b') :
    (b'.fg, b'.bg, b'.style) = ops.foldl attrsAfter (b.fg, b.bg, b.style) := by
  have frame : ∀ {b b' : Buf} {s : List Char} {r : WRes}, b.writeStr env s = some (b', r) →
      (b'.fg, b'.bg, b'.style) = (b.fg, b.bg, b.style) := by
    intro b b' s r e
    obtain ⟨-, -, h3, h4, h5⟩ := (wrote_writeStr henv.comb e).frame
    rw [h3, h4, h5]
  have styled : ∀ {b b' : Buf} {fg bg : Option Color} {st : Style} {s : List Char},
      b.writeStyled env fg bg st s = some (b', .ok) →
      (b'.fg, b'.bg, b'.style) = (none, none, 0#8) := by
    intro b b' fg bg st s e
    unfold Buf.writeStyled at e
    cases e2 : ({ b with fg := fg, bg := bg, style := st } : Buf).writeStr env s with
    | none => rw [e2] at e; cases e
    | some x =>
      obtain ⟨b2, r2⟩ := x
      rw [e2] at e
      cases r2 with
      | ok => simp at e; subst e; rfl
      | oob => simp at e
  induction ops generalizing b with
  | nil => rw [runOps, Option.some.injEq] at e; rw [e]; rfl
  | cons op ops ih =>
    obtain ⟨hop, hrest⟩ := hs
    rw [runOps] at e
    cases e1 : op.run env b with
    | none => rw [e1] at e; cases e
    | some b1 =>
      rw [e1] at e
      have := ih b1 (hrest b1 e1) e
      rw [this, List.foldl_cons]
      congr 1
      cases op with
      | writeChar ch =>
        simp only [BufOp.run, Option.map_eq_some_iff] at e1
        obtain ⟨⟨b2, r2⟩, e2, rfl⟩ := e1
        obtain ⟨-, -, h3, h4, h5⟩ :=
          (wrote_writeChar (List.mem_singleton.mpr rfl) henv.comb e2).frame
        simp only [attrsAfter, h3, h4, h5]
      | writeStr s =>
        simp only [BufOp.run, Option.map_eq_some_iff] at e1
        obtain ⟨⟨b2, r2⟩, e2, rfl⟩ := e1
        exact frame e2
      | writeAt pos s =>
        simp only [BufOp.run, Option.map_eq_some_iff] at e1
        obtain ⟨⟨b2, r2⟩, e2, rfl⟩ := e1
        unfold Buf.writeAt at e2
        split at e2
        · simp at e2; simp only [attrsAfter, e2.1]
        · have := frame e2
          exact this
      | writeStyled fg bg st s =>
        obtain ⟨b2, e2⟩ := hop
        simp only [BufOp.run, e2, Option.map_some, Option.some.injEq] at e1
        subst e1
        exact styled e2
      | writeStyledAt pos fg bg st s =>
        obtain ⟨b2, e2⟩ := hop
        simp only [BufOp.run, e2, Option.map_some, Option.some.injEq] at e1
        subst e1
        unfold Buf.writeStyledAt at e2
        split at e2
        · simp at e2
        · exact styled e2
      | nextLine c =>
        simp only [BufOp.run, Buf.nextLine, uadd] at e1
        split at e1
        · simp at e1; subst e1; rfl
        · cases e1
      | resize s =>
        simp only [BufOp.run, Buf.resize] at e1
        cases e2 : Buf.resizeBuffer b.buffer b.size s with
        | none => rw [e2] at e1; cases e1
        | some l => rw [e2] at e1; simp at e1; subst e1; rfl
      | removeStyle s =>
        simp [BufOp.run] at e1; subst e1; rfl
      | setCursor | clearScreen | clearAttributes | addStyle | setStyle | setFg | setBg | setTheme =>
        simp [BufOp.run] at e1; subst e1; rfl

/-- C16: every cell after a write is as before, or shows a character of the text with exactly the
attributes in force, or is the blank rest of a two-column character half of which was overwritten;
combining marks extend the text of a cell without touching its attributes. The attributes in force
and everything but cells and cursor stay as they were. -/
theorem C16_cells (env : UEnv) (henv : SpaceOk env) (b b' : Buf) (text : List Char) (r : WRes)
    (e : b.writeStr env text = some (b', r)) :
    SameFrame b b' ∧ b'.buffer.length = b.buffer.length ∧
    ∀ c old new, cellAt b c = some old → cellAt b' c = some new →
      CellChange env b.fg b.bg b.style text old new := by
  obtain ⟨hf, hl, hg⟩ := wrote_writeStr henv.comb e
  refine ⟨hf, hl, fun c old new ho hn => ?_⟩
  unfold cellAt at ho hn
  rw [hf.1] at hn
  exact hg _ _ _ ho hn

/-- C16: the same for a styled write and its own attributes. -/
theorem C16_styled_cells (env : UEnv) (henv : SpaceOk env) (b b' : Buf) (text : List Char)
    (fg bg : Option Color) (st : Style) (r : WRes)
    (e : b.writeStyled env fg bg st text = some (b', r)) :
    (r = .ok → (b'.fg, b'.bg, b'.style) = (none, none, 0#8)) ∧
    ∀ c old new, cellAt b c = some old → cellAt b' c = some new →
      CellChange env fg bg st text old new := by
  unfold Buf.writeStyled at e
  cases e2 : ({ b with fg := fg, bg := bg, style := st } : Buf).writeStr env text with
  | none => rw [e2] at e; cases e
  | some x =>
    obtain ⟨b2, r2⟩ := x
    rw [e2] at e
    obtain ⟨hf, hl, hg⟩ := C16_cells env henv _ _ _ _ e2
    cases r2 with
    | ok =>
      simp at e
      obtain ⟨rfl, rfl⟩ := e
      exact ⟨fun _ => rfl, fun c old new ho hn => hg c old new ho hn⟩
    | oob =>
      simp at e
      obtain ⟨rfl, rfl⟩ := e
      exact ⟨(fun h => by cases h), fun c old new ho hn => hg c old new ho hn⟩

/-- C16: the same for the writes that begin with a position. -/
theorem C16_at_cells (env : UEnv) (henv : SpaceOk env) (b b' : Buf) (pos : Cursor) (text : List Char)
    (fg bg : Option Color) (st : Style) (r : WRes) :
    (b.writeAt env pos text = some (b', r) → (b'.fg, b'.bg, b'.style) = (b.fg, b.bg, b.style) ∧
      ∀ c old new, cellAt b c = some old → cellAt b' c = some new →
        CellChange env b.fg b.bg b.style text old new) ∧
    (b.writeStyledAt env pos fg bg st text = some (b', r) →
      (r = .ok → (b'.fg, b'.bg, b'.style) = (none, none, 0#8)) ∧
      ∀ c old new, cellAt b c = some old → cellAt b' c = some new →
        CellChange env fg bg st text old new) := by
  have same : ∀ (f g : Option Color) (s : Style) (c : Cursor) (old new : Cell), cellAt b c = some old →
      cellAt b c = some new → CellChange env f g s text old new := by
    intro f g s c old new ho hn
    rw [ho] at hn; cases hn
    exact .same
  constructor
  · intro e
    unfold Buf.writeAt at e
    cases hp : b.tryCursorAt pos with
    | oob =>
      rw [hp] at e
      cases e
      exact ⟨rfl, same _ _ _⟩
    | ok =>
      rw [hp] at e
      obtain ⟨hf, _, hg⟩ := C16_cells env henv _ _ _ _ e
      refine ⟨?_, fun c old new ho hn => hg c old new ho hn⟩
      obtain ⟨_, _, h1, h2, h3⟩ := hf
      rw [h1, h2, h3]
  · intro e
    unfold Buf.writeStyledAt at e
    cases hp : b.tryCursorAt pos with
    | oob =>
      rw [hp] at e
      cases e
      exact ⟨nofun, same _ _ _⟩
    | ok =>
      rw [hp] at e
      exact C16_styled_cells env henv { b with cursor := pos } _ _ _ _ _ _ e

/-- C16 is false when a styled write runs past the end of the screen: its attributes stay in
force for whatever is drawn next. -/
theorem C16_overflow_leaks :
    SpaceOk demoEnv ∧
    (runOps demoEnv [.writeStyled (some .red) none 1#8 ['a', 'b', 'c'], .writeAt ⟨0, 0⟩ ['x']]
      (Buf.new ⟨1, 2⟩)).map (fun b => (b.fg, b.style, b.buffer[0]?)) =
    some (some .red, 1#8, some ⟨some .red, none, 1#8, ['x']⟩) :=
  ⟨⟨by decide, by decide⟩, by decide⟩

/-- C16_at_cells: a styled write at a position, and what the first cell becomes. -/
example : ((Buf.new ⟨2, 3⟩).writeStyledAt demoEnv ⟨1, 0⟩ (some .red) (some .blue) 2#8 ['a', '世']).map
      (fun x => (x.1.buffer[3]?, x.2)) = some (some ⟨some .red, some .blue, 2#8, ['a']⟩, .ok) := by decide

/-- A history meeting the hypotheses of `C16_attributes_follow_partial`. -/
example : ∃ b', NoStyledOverflow demoEnv (Buf.new ⟨2, 3⟩)
      [.setFg (some .red), .addStyle 5#8, .writeStyled none none 2#8 ['a', '世'], .setBg (some .blue),
        .removeStyle 1#8] ∧
    runOps demoEnv [.setFg (some .red), .addStyle 5#8, .writeStyled none none 2#8 ['a', '世'],
      .setBg (some .blue), .removeStyle 1#8] (Buf.new ⟨2, 3⟩) = some b' ∧
    (b'.fg, b'.bg, b'.style) = (none, some .blue, 0#8) := by
  refine ⟨(runOps demoEnv [.setFg (some .red), .addStyle 5#8,
    .writeStyled none none 2#8 ['a', '世'], .setBg (some .blue), .removeStyle 1#8]
    (Buf.new ⟨2, 3⟩)).get (by decide), ?_, by simp, by decide⟩
  refine ⟨trivial, fun b1 e1 => ⟨trivial, fun b2 e2 => ⟨?_, fun b3 _ => ⟨trivial, fun b4 _ =>
    ⟨trivial, fun _ _ => trivial⟩⟩⟩⟩⟩
  simp only [BufOp.run, Option.some.injEq] at e1
  subst e1
  simp only [BufOp.run, Option.some.injEq] at e2
  subst e2
  exact ⟨((((Buf.new ⟨2, 3⟩).setFg (some .red)).addStyle 5#8).writeStyled demoEnv none none 2#8
    ['a', '世'] |>.get (by decide)).1, by decide⟩

end Mortal
