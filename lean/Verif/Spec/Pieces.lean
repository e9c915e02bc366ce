import Verif.Spec.Unix

/-!
# Input as a stream of keys, characters and mouse reports
-/

namespace Mortal.Spec

/-- One thing the terminal sends: a character, the sequence of a key, or a mouse report after its
introducer. -/
inductive Piece
  | char (c : Char)
  | key (seq : Bytes) (k : Key)
  | mouse (intro code column line : Bytes) (press : Bool)

/-- Its bytes. -/
def Piece.bytes : Piece → Bytes
  | .char c => String.utf8EncodeChar c
  | .key seq _ => seq
  | .mouse i d1 d2 d3 press => i ++ (d1 ++ [59] ++ d2 ++ [59] ++ d3 ++ [if press then 77 else 109])

/-- Its event. -/
def Piece.event : Piece → Event
  | .char c => .key (Key.ofChar c)
  | .key _ k => .key k
  | .mouse _ d1 d2 d3 press => .mouse (sgrEvent (numeral d1) (numeral d2) (numeral d3) press)

/-- The bytes of a stream. -/
def stream (ps : List Piece) : Bytes := ps.flatMap Piece.bytes

/-- A mouse report without its introducer, and anything after it. -/
def BeginsReport (b : Bytes) : Prop := ∃ d1 d2 d3 e r, b = d1 ++ [59] ++ d2 ++ [59] ++ d3 ++ [e] ++ r ∧
  Digits d1 ∧ Digits d2 ∧ Digits d3 ∧ numeral d1 < 2 ^ 32 ∧ numeral d2 < 2 ^ 32 ∧ numeral d3 < 2 ^ 32 ∧
  (e = 77 ∨ e = 109)

/-- The piece is what the input `b` begins with, if `b` is seen as a whole: the longest known sequence,
with its report if it introduces one; or a character, if the input begins with no known sequence but
perhaps an introducer that no report follows. -/
def Piece.Leads (K : PMap SeqData) (b : Bytes) : Piece → Prop
  | .char _ => ∀ k, Begins K b k → K k = some .xtermMouse ∧ ¬ BeginsReport (b.drop k.length)
  | .key seq k => Longest K b seq ∧ K seq = some (.key k)
  | .mouse i d1 d2 d3 _ => Longest K b i ∧ K i = some .xtermMouse ∧ Digits d1 ∧ Digits d2 ∧ Digits d3 ∧
      numeral d1 < 2 ^ 32 ∧ (0 < numeral d2 ∧ numeral d2 < 2 ^ 32) ∧
      (0 < numeral d3 ∧ numeral d3 < 2 ^ 32)

/-- The pieces are how the whole stream is to be read. -/
def Parsed (K : PMap SeqData) : List Piece → Prop
  | [] => True
  | p :: ps => p.Leads K (stream (p :: ps)) ∧ Parsed K ps

/-- The first `n` bytes of the stream do not end inside a key's sequence or a mouse report (they may end
inside a character). -/
def Unsplit : List Piece → Nat → Prop
  | [], _ => True
  | p :: ps, n =>
    if n < p.bytes.length then n = 0 ∨ ∃ c, p = .char c else Unsplit ps (n - p.bytes.length)

end Mortal.Spec
