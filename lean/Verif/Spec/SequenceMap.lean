import Verif.Model.SequenceMap

/-! # Finite maps and the meaning of the `SequenceMap` API -/

namespace Mortal.Spec
variable {V : Type}

/-- One call of the public API that changes a map. `update` is `get_mut` followed by a write
through the reference, and the function `g` of entries is a write through the reference returned.
`entryLook` asks an entry for its key and value and drops it. `entryIntoKey` takes the key back out
of a vacant entry. `writeValues` changes values through
`sequences_mut`. -/
inductive MapOp (V : Type)
  | insert (k : Bytes) (v : V)
  | remove (k : Bytes)
  | update (k : Bytes) (f : V → V)
  | entryInsert (k : Bytes) (v : V)
  | entryOrInsert (k : Bytes) (v : V) (g : V → V)
  | entryModifyOrInsert (k : Bytes) (f : V → V) (v : V) (g : V → V)
  | entryRemove (k : Bytes)
  | entryLook (k : Bytes)
  | entryIntoKey (k : Bytes)
  | writeValues (f : Bytes → V → V)

/-- What a call returns. -/
inductive MapOut (V : Type)
  | old (o : Option V)
  | pair (o : Option (Bytes × V))
  | value (key : Bytes) (v : V)
  | look (key : Bytes) (o : Option V)
  | back (o : Option Bytes)

/-- A mathematical partial map. -/
abbrev PMap (V : Type) := Bytes → Option V

/-- Point update of a partial map. -/
def PMap.upd (m : PMap V) (k : Bytes) (o : Option V) : PMap V :=
  fun k' => if k' = k then o else m k'

/-- The effect and result of each call on the mathematical map. -/
def MapOp.spec (m : PMap V) : MapOp V → PMap V × MapOut V
  | .insert k v => (m.upd k (some v), .old (m k))
  | .remove k => (m.upd k none, .pair ((m k).map fun v => (k, v)))
  | .update k f => (m.upd k ((m k).map f), .old (m k))
  | .entryInsert k v => (m.upd k (some v), .old (m k))
  | .entryOrInsert k v g => (m.upd k (some (g ((m k).getD v))), .value k ((m k).getD v))
  | .entryModifyOrInsert k f v g =>
    let w := ((m k).map f).getD v
    (m.upd k (some (g w)), .value k w)
  | .entryRemove k => (m.upd k none, .pair ((m k).map fun v => (k, v)))
  | .entryLook k => (m, .look k (m k))
  | .entryIntoKey k => (m, .back (if (m k).isNone then some k else none))
  | .writeValues f => (fun k => (m k).map (f k), .old none)

/-- The same calls performed by the crate's code. -/
def MapOp.run (m : SequenceMap V) : MapOp V → Panics (SequenceMap V × MapOut V)
  | .insert k v => (m.insert k v).map fun (m, o) => (m, .old o)
  | .remove k => (m.remove k).map fun (m, o) => (m, .pair o)
  | .update k f => (m.getMut k f).map fun (m, o) => (m, .old o)
  | .entryInsert k v => ((m.entry k).insert m v).map fun (m, o) => (m, .old o)
  | .entryOrInsert k v g => do
    let key ← (m.entry k).key m
    let (m', w) ← (m.entry k).orInsert m v g
    pure (m', .value key w)
  | .entryModifyOrInsert k f v g => do
    let (m', e) ← (m.entry k).andModify m f
    let key ← e.key m'
    let (m'', w) ← e.orInsert m' v g
    pure (m'', .value key w)
  | .entryRemove k => ((m.entry k).removeEntry m).map fun (m, o) => (m, .pair o)
  | .entryLook k => do
    let key ← (m.entry k).key m
    let o ← (m.entry k).get m
    pure (m, .look key o)
  | .entryIntoKey k => let r := (m.entry k).intoKey m; some (r.1, .back r.2)
  | .writeValues f => some (m.writeValues f, .old none)

/-- A history on the mathematical map: final map and all results. -/
def specRun (m : PMap V) : List (MapOp V) → PMap V × List (MapOut V)
  | [] => (m, [])
  | op :: ops =>
    let (m', o) := op.spec m
    let (m'', os) := specRun m' ops
    (m'', o :: os)

/-- A history performed by the crate. -/
def codeRun (m : SequenceMap V) : List (MapOp V) → Panics (SequenceMap V × List (MapOut V))
  | [] => some (m, [])
  | op :: ops => do
    let (m', o) ← op.run m
    let (m'', os) ← codeRun m' ops
    pure (m'', o :: os)

/-- How a map was first made. -/
inductive MapInit (V : Type)
  | new
  | fromVec (l : List (Bytes × V))
  | collect (l : List (Bytes × V))

/-- The map made by the crate. -/
def MapInit.run : MapInit V → Panics (SequenceMap V)
  | .new => some .new
  | .fromVec l => some (.fromVec l)
  | .collect l => SequenceMap.fromIter l

/-- The value of the first pair with key `k`. -/
def firstVal (l : List (Bytes × V)) (k : Bytes) : Option V :=
  match l with
  | [] => none
  | (k', v) :: l => if k = k' then some v else firstVal l k

/-- The value of the last pair with key `k`. -/
def lastVal (l : List (Bytes × V)) (k : Bytes) : Option V := firstVal l.reverse k

/-- The mathematical map a construction should make. -/
def MapInit.spec : MapInit V → PMap V
  | .new => fun _ => none
  | .fromVec l => firstVal l
  | .collect l => lastVal l

/-- What `find` should answer about a mathematical map. -/
def FindSpec (m : PMap V) (q : Bytes) : FindResult V → Prop
  | .notFound => ∀ k v, m k = some v → ¬ q <+: k
  | .incomplete => m q = none ∧ ∃ k v, m k = some v ∧ q <+: k
  | .found v => m q = some v ∧ ∀ k w, m k = some w → q <+: k → k = q
  | .undecided v => m q = some v ∧ ∃ k w, m k = some w ∧ q <+: k ∧ k ≠ q

end Mortal.Spec
