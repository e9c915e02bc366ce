import Verif.Model.Buffer

/-! # Drawing calls do not look at the record of what is on the terminal -/

namespace Mortal
namespace Buf

/-- The buffer with another record. -/
def wb (k : List Cell) (b : Buf) : Buf := { b with back := k }

def wbr (k : List Cell) (p : Buf × WRes) : Buf × WRes := (p.1.wb k, p.2)

theorem modCell_wb (k : List Cell) (b : Buf) (pos : Cursor) (f : Cell → Cell) :
    (b.wb k).modCell pos f = (b.modCell pos f).map (wb k) := by
  simp only [modCell, wb]
  cases b.buffer[pos.asIndex b.size]? <;> rfl

theorem setCell_wb (k : List Cell) (b : Buf) (pos : Cursor) (ch : Char) :
    (b.wb k).setCell pos ch = (b.setCell pos ch).map (wb k) := modCell_wb ..

theorem tearPrev_wb (env : UEnv) (k : List Cell) (b : Buf) :
    (b.wb k).tearPrev env = (b.tearPrev env).map (wb k) := by
  simp only [tearPrev]
  show (b.cursor.previous b.size).bind _ = ((b.cursor.previous b.size).bind _).map _
  rcases b.cursor.previous b.size with _ | _ | p
  · rfl
  · rfl
  · exact modCell_wb ..

theorem bind_wb {k : List Cell} {o o' : Panics Buf} (h : o' = o.map (wb k))
    {f : Buf → Panics Buf} (hf : ∀ b, f (b.wb k) = (f b).map (wb k)) :
    o'.bind f = (o.bind f).map (wb k) := by
  subst h; cases o with
  | none => rfl
  | some b => exact hf b

theorem bind_wbr {k : List Cell} {o o' : Panics Buf} (h : o' = o.map (wb k))
    {f : Buf → Panics (Buf × WRes)} (hf : ∀ b, f (b.wb k) = (f b).map (wbr k)) :
    o'.bind f = (o.bind f).map (wbr k) := by
  subst h; cases o with
  | none => rfl
  | some b => exact hf b

theorem bind_wbr' {k : List Cell} {o o' : Panics (Buf × WRes)} (h : o' = o.map (wbr k))
    {f : Buf × WRes → Panics (Buf × WRes)} (hf : ∀ b, f (wbr k b) = (f b).map (wbr k)) :
    o'.bind f = (o.bind f).map (wbr k) := by
  subst h; cases o with
  | none => rfl
  | some b => exact hf b

theorem bindN_wbr {k : List Cell} {o : Panics Nat}
    {f g : Nat → Panics (Buf × WRes)} (hf : ∀ n, f n = (g n).map (wbr k)) :
    o.bind f = (o.bind g).map (wbr k) := by
  cases o with
  | none => rfl
  | some b => exact hf b

theorem fillLoop_wb (k : List Cell) (ch : Char) : ∀ (n : Nat) (pos : Cursor) (b : Buf),
    fillLoop ch n pos (b.wb k) = (fillLoop ch n pos b).map (wb k)
  | 0, _, _ => rfl
  | n + 1, pos, b => bind_wb (setCell_wb ..) fun b => fillLoop_wb k ch n _ b

theorem padLoop_wb (k : List Cell) : ∀ (n : Nat) (pos : Cursor) (b : Buf),
    padLoop n pos (b.wb k) = (padLoop n pos b).map (wb k)
  | 0, _, _ => rfl
  | n + 1, pos, b => bind_wb (setCell_wb ..) fun b => padLoop_wb k n _ b

theorem placeChar_wb (k : List Cell) (ch : Char) (w : Nat) (b : Buf) :
    placeChar ch w (b.wb k) = (placeChar ch w b).map (wbr k) := by
  unfold placeChar
  have : (b.wb k).tryCursor = b.tryCursor := rfl
  rw [this]
  cases b.tryCursor with
  | oob => rfl
  | ok =>
    refine bind_wbr (setCell_wb ..) fun b => bind_wbr (padLoop_wb ..) fun b => bindN_wbr fun col => ?_
    have : (b.wb k).size = b.size := rfl
    rw [this]
    split
    · exact bindN_wbr fun l => rfl
    · rfl

theorem writeCharNT_wb (env : UEnv) (k : List Cell) (b : Buf) (ch : Char) :
    (b.wb k).writeCharNT env ch = (b.writeCharNT env ch).map (wbr k) := by
  unfold writeCharNT
  split
  · rfl
  split
  · exact bindN_wbr fun l => rfl
  split
  · show (b.cursor.previous b.size).bind _ = ((b.cursor.previous b.size).bind _).map _
    rcases b.cursor.previous b.size with _ | _ | p
    · rfl
    · rfl
    · dsimp only [Option.bind_some]
      have : (b.wb k).tryCursorAt p = b.tryCursorAt p := rfl
      rw [this]
      cases b.tryCursorAt p with
      | oob => rfl
      | ok => exact bind_wbr (modCell_wb ..) fun b => rfl
  split
  · have : (b.wb k).tryCursor = b.tryCursor := rfl
    rw [this]
    cases b.tryCursor with
    | oob => rfl
    | ok =>
      refine bind_wbr (tearPrev_wb ..) fun b => bindN_wbr fun rem => ?_
      dsimp only
      split
      · have : (b.wb k).tryCursor = b.tryCursor := rfl
        rw [this]
        cases b.tryCursor with
        | oob => rfl
        | ok => exact bind_wbr (fillLoop_wb ..) fun b => bindN_wbr fun l => placeChar_wb k ch _ { b with cursor := ⟨l, 0⟩ }
      · exact placeChar_wb ..
  · rfl

theorem tabLoop_wb (env : UEnv) (k : List Cell) : ∀ (n : Nat) (b : Buf),
    tabLoop env n (b.wb k) = (tabLoop env n b).map (wbr k)
  | 0, _ => rfl
  | n + 1, b => bind_wbr' (writeCharNT_wb ..) fun p => by
    rcases p with ⟨b, r⟩
    cases r with
    | ok => exact tabLoop_wb env k n b
    | oob => rfl

theorem writeChar_wb (env : UEnv) (k : List Cell) (b : Buf) (ch : Char) :
    (b.wb k).writeChar env ch = (b.writeChar env ch).map (wbr k) := by
  unfold writeChar
  split
  · have : (b.wb k).tryCursor = b.tryCursor := rfl
    rw [this]
    cases b.tryCursor with
    | oob => rfl
    | ok => exact bindN_wbr fun rem => tabLoop_wb ..
  · exact writeCharNT_wb ..

theorem writeStr_wb (env : UEnv) (k : List Cell) : ∀ (s : List Char) (b : Buf),
    (b.wb k).writeStr env s = (b.writeStr env s).map (wbr k)
  | [], _ => rfl
  | ch :: s, b => bind_wbr' (writeChar_wb ..) fun p => by
    rcases p with ⟨b, r⟩
    cases r with
    | ok => exact writeStr_wb env k s b
    | oob => rfl

theorem writeStyled_wb (env : UEnv) (k : List Cell) (b : Buf) (fg bg : Option Color) (st : Style)
    (s : List Char) :
    (b.wb k).writeStyled env fg bg st s = (b.writeStyled env fg bg st s).map (wbr k) :=
  bind_wbr' (writeStr_wb env k s { b with fg := fg, bg := bg, style := st }) fun p => by
    rcases p with ⟨b, r⟩
    cases r <;> rfl

theorem map_fst_wb {k : List Cell} {o o' : Panics (Buf × WRes)} (h : o' = o.map (wbr k)) :
    o'.map (·.1) = (o.map (·.1)).map (wb k) := by
  subst h; cases o <;> rfl

end Buf

open Buf

/-- A call other than a resize leaves the record and does not depend on it. -/
theorem op_wb (env : UEnv) (k : List Cell) (op : BufOp) (h : ∀ z, op ≠ .resize z) (b : Buf) :
    op.run env (b.wb k) = (op.run env b).map (wb k) := by
  cases op with
  | resize z => exact absurd rfl (h z)
  | nextLine c =>
    simp only [BufOp.run, nextLine]
    show (uadd b.cursor.line 1).bind _ = ((uadd b.cursor.line 1).bind _).map _
    cases uadd b.cursor.line 1 <;> rfl
  | writeChar ch => exact map_fst_wb (writeChar_wb ..)
  | writeStr s => exact map_fst_wb (writeStr_wb ..)
  | writeAt pos s =>
    refine map_fst_wb ?_
    unfold writeAt
    have : (b.wb k).tryCursorAt pos = b.tryCursorAt pos := rfl
    rw [this]
    cases b.tryCursorAt pos with
    | oob => rfl
    | ok => exact writeStr_wb env k s { b with cursor := pos }
  | writeStyled fg bg st s => exact map_fst_wb (writeStyled_wb ..)
  | writeStyledAt pos fg bg st s =>
    refine map_fst_wb ?_
    unfold writeStyledAt
    have : (b.wb k).tryCursorAt pos = b.tryCursorAt pos := rfl
    rw [this]
    cases b.tryCursorAt pos with
    | oob => rfl
    | ok => exact writeStyled_wb env k { b with cursor := pos } fg bg st s
  | _ => rfl

theorem resize_wb (env : UEnv) (k : List Cell) (z : Size) (b : Buf) :
    (BufOp.resize z).run env (b.wb k) = (BufOp.resize z).run env b := rfl

end Mortal
