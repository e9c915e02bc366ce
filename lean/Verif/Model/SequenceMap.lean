import Verif.Model.Types

/-! # `src/sequence.rs`

Keys (`K: AsRef<str>`) are modelled by the bytes of their string: `str` comparison, equality and
`starts_with` are byte-wise in Rust. A key type is otherwise opaque. -/

namespace Mortal

/-- The bytes of a `str`. (For `src/sequence.rs:144-146`.) -/
abbrev Bytes := List UInt8

/-- Rust `Ord for str`: lexicographic comparison of the bytes. (For `src/sequence.rs:144-146`, 156.) -/
def cmpBytes : Bytes → Bytes → Ordering
  | [], [] => .eq
  | [], _ :: _ => .lt
  | _ :: _, [] => .gt
  | a :: as, b :: bs =>
    if a.toNat < b.toNat then .lt else if b.toNat < a.toNat then .gt else cmpBytes as bs

/-- Rust `str::starts_with` on the bytes. (For `src/sequence.rs:96`.) -/
def startsWith : Bytes → Bytes → Bool
  | _, [] => true
  | [], _ :: _ => false
  | a :: as, b :: bs => if a.toNat = b.toNat then startsWith as bs else false

/-- Result of `slice::binary_search_by`: `Ok(n)` or `Err(n)`. (For `src/sequence.rs:144-146`.) -/
inductive SearchRes
  | found (n : Nat)
  | missing (n : Nat)
deriving DecidableEq, Repr

/-- The loop of `core::slice::binary_search_by`:
`while left < right { mid = left + (right-left)/2; match f(mid) { Less => left = mid+1,
Greater => right = mid, Equal => return Ok(mid) } } Err(left)`.
The first argument bounds the number of rounds; it is started at the length of the slice, and every
round shrinks `right - left`, so it never runs out (used as such in `bsearchLoop_spec`). On a
strictly sorted slice every version of the standard library returns the same result.
(For `src/sequence.rs:144-146`.) -/
def bsearchLoop (f : Nat → Ordering) : Nat → Nat → Nat → SearchRes
  | 0, left, _ => .missing left
  | fuel + 1, left, right =>
    if left < right then
      let mid := left + (right - left) / 2
      match f mid with
      | .lt => bsearchLoop f fuel (mid + 1) right
      | .gt => bsearchLoop f fuel left mid
      | .eq => .found mid
    else .missing left

/-- `src/sequence.rs:9-11` `SequenceMap<K, V>`. -/
structure SequenceMap (V : Type) where
  sequences : List (Bytes × V)

/-- `src/sequence.rs:15-27` `FindResult`. -/
inductive FindResult (V : Type)
  | notFound
  | incomplete
  | undecided (v : V)
  | found (v : V)
deriving DecidableEq, Repr

/-- `src/sequence.rs:30-41` `FindResult::cloned` (cloning a value is the identity here). -/
def FindResult.cloned {V : Type} : FindResult V → FindResult V
  | .notFound => .notFound
  | .incomplete => .incomplete
  | .undecided v => .undecided v
  | .found v => .found v

namespace SequenceMap
variable {V : Type}

/-- `src/sequence.rs:44-53` `new`, `with_capacity`. -/
def new : SequenceMap V := ⟨[]⟩

/-- The comparison made by `binary_search_by_key` at index `i` (`src/sequence.rs:145`). An index
outside the slice cannot occur (`mid < right ≤ len`); the missing element is treated as greater. -/
def cmpAt (m : SequenceMap V) (key : Bytes) (i : Nat) : Ordering :=
  match m.sequences[i]? with
  | some (k, _) => cmpBytes k key
  | none => .gt

/-- `src/sequence.rs:144-146` `search`. -/
def search (m : SequenceMap V) (key : Bytes) : SearchRes :=
  bsearchLoop (m.cmpAt key) m.sequences.length 0 m.sequences.length

/-- `src/sequence.rs:89-104` `find` after the search has answered `r`. `none` models the panic of
an out-of-range index. -/
def findAt (m : SequenceMap V) (key : Bytes) (r : SearchRes) : Panics (FindResult V) :=
  let (n, found) := match r with
    | .found n => (n, true)
    | .missing n => (n, false)
  let incomplete := match m.sequences[n + (if found then 1 else 0)]? with
    | some (next, _) => startsWith next key
    | none => false
  match found, incomplete with
  | false, false => some .notFound
  | false, true => some .incomplete
  | true, false => m.sequences[n]?.map fun e => .found e.2
  | true, true => m.sequences[n]?.map fun e => .undecided e.2

/-- `src/sequence.rs:89-104` `find`. -/
def find (m : SequenceMap V) (key : Bytes) : Panics (FindResult V) := m.findAt key (m.search key)

/-- `src/sequence.rs:107-112` `get` after the search has answered `r`. Outer `none`: index panic. -/
def getAt (m : SequenceMap V) (r : SearchRes) : Panics (Option V) :=
  match r with
  | .found n => m.sequences[n]?.map fun e => some e.2
  | .missing _ => some none

/-- `src/sequence.rs:107-112` `get`. -/
def get (m : SequenceMap V) (key : Bytes) : Panics (Option V) := m.getAt (m.search key)

/-- `src/sequence.rs:115-120` `get_mut` followed by a write of `f old` through the reference.
Returns whether a reference was returned. -/
def getMut (m : SequenceMap V) (key : Bytes) (f : V → V) : Panics (SequenceMap V × Option V) :=
  match m.search key with
  | .found n => m.sequences[n]?.map fun e => (⟨m.sequences.set n (e.1, f e.2)⟩, some e.2)
  | .missing _ => some (m, none)

/-- Rust `Vec::insert(n, x)`: panics if `n > len`. (For `src/sequence.rs:130`, 297.) -/
def vecInsert {α : Type} (l : List α) (n : Nat) (x : α) : Panics (List α) :=
  if n ≤ l.length then some (l.take n ++ x :: l.drop n) else none

/-- Rust `Vec::remove(n)`: panics if `n ≥ len`; returns the element. (For `src/sequence.rs:139`, 274, 279.) -/
def vecRemove {α : Type} (l : List α) (n : Nat) : Panics (List α × α) :=
  match l[n]? with
  | some x => some (l.take n ++ l.drop (n + 1), x)
  | none => none

/-- `src/sequence.rs:126-134` `insert` after the search has answered `r`. -/
def insertAt (m : SequenceMap V) (key : Bytes) (value : V) (r : SearchRes) :
    Panics (SequenceMap V × Option V) :=
  match r with
  | .found n => m.sequences[n]?.map fun e => (⟨m.sequences.set n (key, value)⟩, some e.2)
  | .missing n => (vecInsert m.sequences n (key, value)).map fun l => (⟨l⟩, none)

/-- `src/sequence.rs:126-134` `insert`. -/
def insert (m : SequenceMap V) (key : Bytes) (value : V) : Panics (SequenceMap V × Option V) :=
  m.insertAt key value (m.search key)

/-- `src/sequence.rs:137-142` `remove` after the search has answered `r`. -/
def removeAt (m : SequenceMap V) (r : SearchRes) : Panics (SequenceMap V × Option (Bytes × V)) :=
  match r with
  | .found n => (vecRemove m.sequences n).map fun (l, e) => (⟨l⟩, some e)
  | .missing _ => some (m, none)

/-- `src/sequence.rs:137-142` `remove`. -/
def remove (m : SequenceMap V) (key : Bytes) : Panics (SequenceMap V × Option (Bytes × V)) :=
  m.removeAt (m.search key)

/-- `src/sequence.rs:185-203` `Entry`: an index into the (borrowed) map, or a key with the index at
which it would be inserted. -/
inductive Entry
  | occupied (index : Nat)
  | vacant (key : Bytes) (index : Nat)

/-- `src/sequence.rs:74-86` `entry`. -/
def entry (m : SequenceMap V) (key : Bytes) : Entry :=
  match m.search key with
  | .found n => .occupied n
  | .missing n => .vacant key n

/-- `src/sequence.rs:208-216` `Entry::and_modify` (through `OccupiedEntry::get_mut`,
lines 257-259). -/
def Entry.andModify (m : SequenceMap V) (e : Entry) (f : V → V) :
    Panics (SequenceMap V × Entry) :=
  match e with
  | .occupied n => m.sequences[n]?.map fun kv => (⟨m.sequences.set n (kv.1, f kv.2)⟩, e)
  | .vacant _ _ => some (m, e)

/-- `src/sequence.rs:220-225` `Entry::or_insert` (`OccupiedEntry::into_mut`, lines 263-265;
`VacantEntry::insert`, lines 296-299); also `or_insert_with` (lines 229-234). The caller then
writes `g old` through the returned reference. Returns the map and the value the reference first
pointed to. -/
def Entry.orInsert (m : SequenceMap V) (e : Entry) (d : V) (g : V → V) :
    Panics (SequenceMap V × V) :=
  match e with
  | .occupied n => m.sequences[n]?.map fun kv => (⟨m.sequences.set n (kv.1, g kv.2)⟩, kv.2)
  | .vacant k n => do
    let l ← vecInsert m.sequences n (k, d)
    let kv ← l[n]?
    pure (⟨l.set n (kv.1, g kv.2)⟩, kv.2)

/-- `src/sequence.rs:237-242` `Entry::key`. -/
def Entry.key (m : SequenceMap V) (e : Entry) : Panics Bytes :=
  match e with
  | .occupied n => m.sequences[n]?.map (·.1)
  | .vacant k _ => some k

/-- `src/sequence.rs:268-270` `OccupiedEntry::insert` (on a vacant entry:
`VacantEntry::insert`, lines 296-299). -/
def Entry.insert (m : SequenceMap V) (e : Entry) (v : V) : Panics (SequenceMap V × Option V) :=
  match e with
  | .occupied n => m.sequences[n]?.map fun kv => (⟨m.sequences.set n (kv.1, v)⟩, some kv.2)
  | .vacant k n => (vecInsert m.sequences n (k, v)).map fun l => (⟨l⟩, none)

/-- `src/sequence.rs:252-254` `OccupiedEntry::get`; a vacant entry has no value. -/
def Entry.get (m : SequenceMap V) (e : Entry) : Panics (Option V) :=
  match e with
  | .occupied n => m.sequences[n]?.map fun kv => some kv.2
  | .vacant _ _ => some none

/-- `src/sequence.rs:60-69` `sequences_mut`, after which the program has written the pairs `l` into
the slice. A slice has a fixed length; a list of another length cannot be written. -/
def sequencesMut (m : SequenceMap V) (l : List (Bytes × V)) : SequenceMap V :=
  if l.length = m.sequences.length then ⟨l⟩ else m

/-- `src/sequence.rs:67-69` `sequences_mut`, followed by writing values only. -/
def writeValues (m : SequenceMap V) (f : Bytes → V → V) : SequenceMap V :=
  ⟨m.sequences.map fun e => (e.1, f e.1 e.2)⟩

/-- `src/sequence.rs:273-280` `OccupiedEntry::remove`, `remove_entry`; a vacant entry is left. -/
def Entry.removeEntry (m : SequenceMap V) (e : Entry) :
    Panics (SequenceMap V × Option (Bytes × V)) :=
  match e with
  | .occupied n => (vecRemove m.sequences n).map fun (l, kv) => (⟨l⟩, some kv)
  | .vacant _ _ => some (m, none)

/-- `src/sequence.rs:290-292` `VacantEntry::into_key`: the entry is given up, and the map with it
left as it was. An occupied entry has no such call. -/
def Entry.intoKey (m : SequenceMap V) : Entry → SequenceMap V × Option Bytes
  | .vacant k _ => (m, some k)
  | .occupied _ => (m, none)

/-- Rust's stable `sort_by` on keys: modelled by stable insertion sort (a stable sort's result is
determined by the input: sorted, and equal keys keep their order). (For `src/sequence.rs:156`.) -/
def insertSorted (x : Bytes × V) : List (Bytes × V) → List (Bytes × V)
  | [] => [x]
  | y :: ys => if cmpBytes y.1 x.1 = .gt then x :: y :: ys else y :: insertSorted x ys

/-- Stable sort of the whole vector (elements inserted left to right). (For `src/sequence.rs:156`.) -/
def stableSort (l : List (Bytes × V)) : List (Bytes × V) :=
  l.foldl (fun acc x => insertSorted x acc) []

/-- Rust `Vec::dedup_by(|a, b| a.0 == b.0)`: `a` is the later element, removed if it has the same
key as the last retained element `b`. (For `src/sequence.rs:157`.) -/
def dedupKeys : List (Bytes × V) → List (Bytes × V)
  | [] => []
  | x :: xs => x :: go x xs
where
  /-- Remaining elements after retained element `b`. -/
  go (b : Bytes × V) : List (Bytes × V) → List (Bytes × V)
    | [] => []
    | a :: as => if a.1 == b.1 then go b as else a :: go a as

/-- `src/sequence.rs:149-161` `From<Vec<(K, V)>>`. -/
def fromVec (l : List (Bytes × V)) : SequenceMap V := ⟨dedupKeys (stableSort l)⟩

/-- `src/sequence.rs:163-177` `FromIterator`. -/
def fromIter (l : List (Bytes × V)) : Panics (SequenceMap V) :=
  l.foldlM (fun m kv => (m.insert kv.1 kv.2).map (·.1)) new

end SequenceMap
end Mortal
