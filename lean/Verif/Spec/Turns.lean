import Verif.Spec.Pieces

/-!
# What each read makes of the bytes that have arrived
-/

namespace Mortal.Spec

/-- The piece is what the bytes `b`, all that has arrived, are taken to begin with: the longest known
sequence, with its report if it introduces one; a character, if `b` begins with no known sequence or the
longest one introduces a report that is not there, or not all of it. -/
def Piece.Heads (K : PMap SeqData) (b : Bytes) (p : Piece) : Prop :=
  p.bytes <+: b ∧
  match p with
  | .char _ => (∀ k, ¬ Begins K b k) ∨
      ∃ k, Longest K b k ∧ K k = some .xtermMouse ∧ ¬ BeginsReport (b.drop k.length)
  | .key seq k => Longest K b seq ∧ K seq = some (.key k)
  | .mouse i d1 d2 d3 _ => Longest K b i ∧ K i = some .xtermMouse ∧ Digits d1 ∧ Digits d2 ∧ Digits d3 ∧
      numeral d1 < 2 ^ 32 ∧ (0 < numeral d2 ∧ numeral d2 < 2 ^ 32) ∧
      (0 < numeral d3 ∧ numeral d3 < 2 ^ 32)

/-- Nothing can be made of the bytes before more of them arrive. -/
def Pending (b : Bytes) : Prop := b = [] ∨ Unfinished b

/-- A result that says nothing about the input. -/
inductive Silent : URet → Prop
  | nothing : Silent (.event none)
  | signal (sig : Signal) : Silent (.event (some (.signal sig)))
  | resize (sz : Size) : Silent (.event (some (.resize sz)))
  | err (e : IoErr) : Silent (.err e)
  | flag (b : Bool) : Silent (.flag b)
  | unit : Silent .unit

/-- One call: it finds the bytes `b` left over, reads the bytes `got` from the device, returns `r` and
leaves `b'`. -/
inductive Turn (K : PMap SeqData) : UOp → URet → (b got b' : Bytes) → Prop
  /-- Something has arrived already: nothing is read. -/
  | told {t : Option Nat} {p : Piece} {b rest : Bytes} : b = p.bytes ++ rest → p.Heads K b →
      Turn K (.readEvent t) (.event (some p.event)) b [] rest
  /-- Something arrives with the bytes read. -/
  | toldAfter {t : Option Nat} {p : Piece} {b got rest : Bytes} : Pending b → b ++ got = p.bytes ++ rest →
      p.Heads K (b ++ got) → Turn K (.readEvent t) (.event (some p.event)) b got rest
  /-- A character is still not complete. -/
  | notYet {t : Option Nat} {b got : Bytes} : Pending b → Pending (b ++ got) →
      Turn K (.readEvent t) (.event none) b got (b ++ got)
  | bad {t : Option Nat} {b : Bytes} : IllFormed b → Turn K (.readEvent t) (.err .utf8) b [] b
  | badAfter {t : Option Nat} {b got : Bytes} : Pending b → IllFormed (b ++ got) →
      Turn K (.readEvent t) (.err .utf8) b got (b ++ got)
  /-- A signal, the end of the wait, a failure. -/
  | silent {t : Option Nat} {r : URet} {b : Bytes} : Silent r → Pending b →
      Turn K (.readEvent t) r b [] b
  /-- `read_raw` gives out what is left over before it reads. -/
  | rawLeft {n : Nat} {t : Option Nat} {b : Bytes} : b ≠ [] →
      Turn K (.readRaw n t) (.raw (b.take n)) b [] (b.drop n)
  | rawRead {n : Nat} {t : Option Nat} {got : Bytes} : Turn K (.readRaw n t) (.raw got) [] got []
  | rawSilent {n : Nat} {t : Option Nat} {r : URet} : Silent r → Turn K (.readRaw n t) r [] [] []
  /-- The other calls leave the input alone. -/
  | other {op : UOp} {r : URet} {b : Bytes} : (∀ t, op ≠ .readEvent t) → (∀ n t, op ≠ .readRaw n t) →
      Silent r → Turn K op r b [] b

/-- A history of calls: their results, the bytes each of them read, and what is left over. -/
inductive Turns (K : PMap SeqData) : List UOp → List URet → Bytes → List Bytes → Bytes → Prop
  | nil {b : Bytes} : Turns K [] [] b [] b
  | cons {op : UOp} {ops : List UOp} {r : URet} {rs : List URet} {b b' b'' got : Bytes}
      {gots : List Bytes} : Turn K op r b got b' → Turns K ops rs b' gots b'' →
      Turns K (op :: ops) (r :: rs) b (got :: gots) b''

end Mortal.Spec
