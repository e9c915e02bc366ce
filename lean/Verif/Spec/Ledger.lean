import Verif.Spec.Screen

/-!
# What a terminal shows when refreshes fail

Bookkeeping for sessions without two-column characters: which cells are due at a refresh, which
were shown when it ended early, and which one was noted as shown without being shown. Nothing here
refers to how the code keeps its records; the only fact taken from an execution is how many texts
each refresh handed over and which attributes were in effect when it began.
-/

namespace Mortal.Spec

/-- The positions of a screen in reading order. -/
def allCells (z : Size) : List Cursor := (List.range (z.lines * z.columns)).map (posOf z)

/-- `buf`: what the program has drawn. `shown`: what the terminal shows. `noted`: what each cell was
last taken to show; nothing after a change of size. `wipe`: the terminal is to be cleared first. -/
structure Ledger where
  buf : Buf
  shown : Cursor → TCell
  noted : Cursor → Option Cell
  wipe : Bool

/-- A screen just opened: blank, and known to be blank. -/
def Ledger.start (z : Size) : Ledger :=
  ⟨Buf.new z, fun _ => .narrow [' '] .plain, fun _ => some ⟨none, none, 0#8, [' ']⟩, false⟩

/-- The cells to send: those whose content is not what was noted, in reading order. -/
def Ledger.due (L : Ledger) : List Cursor :=
  (allCells L.buf.size).filter fun p => decide (cellAt L.buf p ≠ L.noted p)

open Classical in
/-- A refresh that handed over `n` texts. The first `n` due cells are shown. The next one, if there
is one, is noted although it is not shown. `ink` are the attributes of cleared cells. -/
noncomputable def Ledger.refreshed (u : UEnv) (n : Nat) (ink : DevAttrs) (L : Ledger) : Ledger where
  buf := L.buf
  shown := fun p =>
    if p ∈ L.due.take n then ((cellAt L.buf p).map (picture u)).getD .torn
    else if L.wipe then .narrow [' '] ink else L.shown p
  noted := fun p => if p ∈ L.due.take (n + 1) then cellAt L.buf p else L.noted p
  wipe := false

/-- One step of a session. -/
noncomputable def Ledger.step (u : UEnv) (n : Nat) (ink : DevAttrs) (L : Ledger) :
    SStep → Option Ledger
  | .draw op => (op.run u L.buf).map fun b => { L with buf := b }
  | .refresh => some (L.refreshed u n ink)
  | .resized size cell _ =>
    ((BufOp.resize size).run u L.buf).map fun b => ⟨b, cell, fun _ => none, true⟩

/-- The texts handed over between two states of a session. -/
def handed (x y : Sess) : List Bytes := sentTexts (y.s.w.log.drop x.s.w.log.length)

/-- The attributes of a cell cleared in this state: those in effect, or none, depending on the kind
of terminal. -/
def clearInk (x : Sess) : DevAttrs := if x.t.bce then x.t.attrs else .plain

/-- The bookkeeping along a session. -/
noncomputable def Ledger.follow (u : UEnv) (env : WEnv) : List SStep → Sess → Ledger → Option Ledger
  | [], _, L => some L
  | st :: rest, x, L =>
    (st.run u env x).bind fun (_, y) =>
      (L.step u (handed x y).length (clearInk x) st).bind (Ledger.follow u env rest y)

end Mortal.Spec
