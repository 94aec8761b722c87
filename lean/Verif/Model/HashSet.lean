/-!
# The chained hash set (/repo/hashset.go)

A bucket (a linked list of bins) is a `List` in list order. The pool of unused bins (:157-177) only
recycles memory and is not part of this model. A Go panic (index out of range, division by zero) is `none`.
`uint` is `Nat`.
-/

namespace CP

/-- /repo/hashset.go:190-221 `primes`. -/
def primes : List Nat :=
  [5, 13, 23, 47, 97, 193, 389, 769, 1543, 3079, 6151, 12289, 24593, 49157, 98317, 196613, 393241,
   786433, 1572869, 3145739, 6291469, 12582917, 25165843, 50331653, 100663319, 201326611, 402653189,
   805306457, 1610612741, 0]

/-- /repo/hashset.go:223-229 `nextPrime`: the first table entry `p` with `¬ (n > p)`;
`none` is the index-out-of-range panic past the end of the table. -/
def nextPrime (n : Nat) : Option Nat := primes.find? (fun p => !decide (n > p))

/-- /repo/hashset.go:6-10 `HashSetBin` (the `next` pointer is the list structure). -/
structure Bin (U : Type) where
  hash : Nat
  elt : U

/-- /repo/hashset.go:13-21 `HashSet`. -/
structure HashSet (U : Type) where
  entries : Nat
  size : Nat
  table : List (List (Bin U))

namespace HashSet
variable {T U : Type}

/-- /repo/hashset.go:24-31 `NewHashSet`. -/
def new : Option (HashSet U) :=
  (nextPrime 0).map fun size => { entries := 0, size := size, table := List.replicate size [] }

/-- The body of the inner loop of `resize` (/repo/hashset.go:43-45): push a bin on its new bucket. -/
def push (newSize : Nat) (tbl : List (List (Bin U))) (b : Bin U) : List (List (Bin U)) :=
  tbl.modify (b.hash % newSize) (fun l => b :: l)

/-- /repo/hashset.go:33-53 `resize`: all bins, bucket by bucket, are pushed on the new table. -/
def resize (s : HashSet U) : Option (HashSet U) :=
  (nextPrime (s.size + 1)).map fun newSize =>
    { s with
      size := newSize
      table := (s.table.flatten).foldl (push newSize) (List.replicate newSize []) }

/-- /repo/hashset.go:56-58 `Count`. -/
def count (s : HashSet U) : Nat := s.entries

/-- /repo/hashset.go:61-88 `Insert`. `u` is the value `transform(ptr)` would return. -/
def insert (eq : T → U → Bool) (s : HashSet U) (hash : Nat) (t : T) (u : U) :
    Option (HashSet U × U) :=
  match s.table[hash % s.size]? with
  | none => none
  | some bucket =>
    match bucket.find? (fun b => eq t b.elt) with
    | some b => some (s, b.elt)
    | none =>
      let s' : HashSet U :=
        { s with
          entries := s.entries + 1
          table := s.table.set (hash % s.size) (⟨hash, u⟩ :: bucket) }
      if s'.entries ≥ s'.size then (s'.resize).map (fun r => (r, u)) else some (s', u)

/-- /repo/hashset.go:91-117 `Remove`. The inner `none` is the zero value returned for an absent key. -/
def remove (eq : T → U → Bool) (s : HashSet U) (hash : Nat) (t : T) :
    Option (HashSet U × Option U) :=
  match s.table[hash % s.size]? with
  | none => none
  | some bucket =>
    match bucket.find? (fun b => eq t b.elt) with
    | some b =>
      some ({ s with
              entries := s.entries - 1
              table := s.table.set (hash % s.size) (bucket.eraseP (fun b => eq t b.elt)) },
            some b.elt)
    | none => some (s, none)

/-- /repo/hashset.go:120-132 `Find`. -/
def find (eq : T → U → Bool) (s : HashSet U) (hash : Nat) (t : T) : Option (Option U) :=
  match s.table[hash % s.size]? with
  | none => none
  | some bucket => some ((bucket.find? (fun b => eq t b.elt)).map Bin.elt)

/-- /repo/hashset.go:135-143 `Each`: the elements in the order the callback sees them. -/
def each (s : HashSet U) : List U := s.table.flatten.map Bin.elt

/-- /repo/hashset.go:146-166 `Filter` with a pure predicate. -/
def filter (s : HashSet U) (p : U → Bool) : HashSet U :=
  { s with
    entries := s.entries - (s.table.flatten.filter (fun b => !p b.elt)).length
    table := s.table.map (fun bucket => bucket.filter (fun b => p b.elt)) }

end HashSet

/-- A call on a hash set, for histories. Keys are of type `T`, elements of type `U`. -/
inductive HashOp (T U : Type) where
  | insert (t : T) (u : U)
  | remove (t : T)
  | find (t : T)
  | filter (p : U → Bool)

end CP
