import Verif.Model.Types

/-! # `src/signal.rs` -/

namespace Mortal

/-- `*self as u8` of `src/signal.rs:32` (declaration order of the enum, lines 9-26). -/
def Signal.discr : Signal → Nat
  | .break => 0 | .continue => 1 | .interrupt => 2 | .resize => 3 | .suspend => 4 | .quit => 5

/-- `src/signal.rs:28` `NUM_SIGNALS`. -/
def NUM_SIGNALS : Nat := 6

/-- `src/signal.rs:31-33` `Signal::as_bit`. -/
def Signal.asBit (s : Signal) : BitVec 8 := 1#8 <<< s.discr

/-- `src/signal.rs:35-37` `Signal::all_bits`. -/
def Signal.allBits : BitVec 8 := (1#8 <<< NUM_SIGNALS) - 1#8

/-- `src/signal.rs:62` `SignalSet(u8)`. -/
structure SignalSet where
  bits : BitVec 8
deriving DecidableEq

namespace SignalSet

/-- `src/signal.rs:66-68`. -/
def new : SignalSet := ⟨0#8⟩
/-- `src/signal.rs:71-73`. -/
def all : SignalSet := ⟨Signal.allBits⟩
/-- `src/signal.rs:76-78`. -/
def contains (s : SignalSet) (sig : Signal) : Bool := (s.bits &&& sig.asBit) != 0#8
/-- `src/signal.rs:81-83`. -/
def containsAll (s o : SignalSet) : Bool := (s.bits &&& o.bits) == o.bits
/-- `src/signal.rs:86-88`. -/
def intersects (s o : SignalSet) : Bool := (s.bits &&& o.bits) != 0#8
/-- `src/signal.rs:91-93`. -/
def isEmpty (s : SignalSet) : Bool := s.bits == 0#8
/-- `src/signal.rs:96-98`. -/
def insert (s : SignalSet) (sig : Signal) : SignalSet := ⟨s.bits ||| sig.asBit⟩
/-- `src/signal.rs:101-103`. -/
def remove (s : SignalSet) (sig : Signal) : SignalSet := ⟨s.bits &&& ~~~sig.asBit⟩
/-- `src/signal.rs:106-112`. -/
def set (s : SignalSet) (sig : Signal) (b : Bool) : SignalSet :=
  if b then s.insert sig else s.remove sig
/-- `src/signal.rs:120-122` (also `-`, lines 255, 262). -/
def difference (s o : SignalSet) : SignalSet := ⟨s.bits &&& ~~~o.bits⟩
/-- `src/signal.rs:130-132` (also `^`, lines 254, 261). -/
def symmetricDifference (s o : SignalSet) : SignalSet := ⟨s.bits ^^^ o.bits⟩
/-- `src/signal.rs:140-142` (also `&`, lines 252, 259). -/
def intersection (s o : SignalSet) : SignalSet := ⟨s.bits &&& o.bits⟩
/-- `src/signal.rs:149-151` (also `|`, lines 253, 260). -/
def union (s o : SignalSet) : SignalSet := ⟨s.bits ||| o.bits⟩
/-- `src/signal.rs:158-160` (also `!`, line 257). -/
def inverse (s : SignalSet) : SignalSet := ⟨~~~s.bits &&& Signal.allBits⟩
/-- `src/signal.rs:193-199` `From<Signal>`. -/
def ofSignal (sig : Signal) : SignalSet := new.insert sig
/-- `src/signal.rs:40-50` `Signal | Signal`. -/
def orSignals (a b : Signal) : SignalSet := (new.insert a).insert b
/-- `src/signal.rs:52-58` `!Signal`. -/
def notSignal (a : Signal) : SignalSet := (ofSignal a).inverse
/-- `src/signal.rs:201-207` `Extend<Signal>`. -/
def extend (s : SignalSet) (l : List Signal) : SignalSet := l.foldl insert s
/-- `src/signal.rs:209-216` `FromIterator<Signal>`. -/
def fromList (l : List Signal) : SignalSet := new.extend l

/-- Derived `Debug` of `Signal` (`src/signal.rs:8`): the variant name. -/
def _root_.Mortal.Signal.name : Signal → List Char
  | .break => ['B', 'r', 'e', 'a', 'k']
  | .continue => ['C', 'o', 'n', 't', 'i', 'n', 'u', 'e']
  | .interrupt => ['I', 'n', 't', 'e', 'r', 'r', 'u', 'p', 't']
  | .resize => ['R', 'e', 's', 'i', 'z', 'e']
  | .suspend => ['S', 'u', 's', 'p', 'e', 'n', 'd']
  | .quit => ['Q', 'u', 'i', 't']

/-- `src/signal.rs:165-172` the constant `SIGNALS`. -/
def SIGNALS : List Signal := [.break, .continue, .interrupt, .resize, .suspend, .quit]

/-- `src/signal.rs:174-187` the loop of `fmt`: `(first, text so far)`. -/
def debugLoop (s : SignalSet) : List Signal → Bool × List Char → Bool × List Char
  | [], acc => acc
  | sig :: rest, (first, out) =>
    if s.contains sig then
      debugLoop s rest (false, (if !first then out ++ [' ', '|', ' '] else out) ++ sig.name)
    else debugLoop s rest (first, out)

/-- `src/signal.rs:163-191` `impl Debug for SignalSet` (the text as a list of characters; the
formatter is assumed to accept it, a `fmt::Error` just stops). -/
def debug (s : SignalSet) : List Char :=
  (debugLoop s SIGNALS (true, ['S', 'i', 'g', 'n', 'a', 'l', 'S', 'e', 't', '('])).2 ++ [')']

end SignalSet
end Mortal
