import Verif.Basic

/-!
Model of `canadensis_filter_config/src/lib.rs`.
-/

namespace Verif.FilterConfig

/-- `EXTENDED_ID_MASK`, canadensis_filter_config/src/lib.rs L48. -/
def extendedIdMask : BitVec 32 := 0x1fffffff#32

/-- `VALID_BIT`, canadensis_filter_config/src/lib.rs L51. -/
def validBit : BitVec 32 := 0x80000000#32

/-- `struct Filter`, canadensis_filter_config/src/lib.rs L58-66. -/
structure Filter where
  mask : BitVec 32
  idAndValid : BitVec 32
deriving DecidableEq, Repr

/-- `Filter::new`, canadensis_filter_config/src/lib.rs L73-78. -/
def Filter.new (mask id : BitVec 32) : Filter :=
  ⟨mask &&& extendedIdMask, (id &&& extendedIdMask) ||| validBit⟩

/-- `Filter::exact_match`, canadensis_filter_config/src/lib.rs L82-84. -/
def Filter.exactMatch (id : BitVec 32) : Filter := Filter.new extendedIdMask id

/-- `Filter::id`, canadensis_filter_config/src/lib.rs L93-95. -/
def Filter.id (f : Filter) : BitVec 32 := f.idAndValid &&& extendedIdMask

/-- `Filter::is_valid`, canadensis_filter_config/src/lib.rs L98-100. -/
def Filter.isValid (f : Filter) : Bool := f.idAndValid &&& validBit != 0#32

/-- The filter left by `Filter::invalidate`, canadensis_filter_config/src/lib.rs L102-105. -/
def Filter.invalid : Filter := ⟨0#32, 0#32⟩

/-- `u32::count_ones` as used in canadensis_filter_config/src/lib.rs L111. -/
def countOnes (x : BitVec 32) : Nat := (List.range 32).countP (fun i => x.getLsbD i)

/-- `Filter::rank`, canadensis_filter_config/src/lib.rs L110-112. -/
def Filter.rank (f : Filter) : Nat := countOnes f.mask

/-- `Filter::accepts`, canadensis_filter_config/src/lib.rs L115-117. -/
def Filter.accepts (f : Filter) (id : BitVec 32) : Bool :=
  (f.mask &&& id) == (f.mask &&& f.id)

/-- `merge_masks`, canadensis_filter_config/src/lib.rs L162-164. -/
def mergeMasks (a b : Filter) : BitVec 32 := a.mask &&& b.mask &&& ~~~(a.id ^^^ b.id)

/-- `merge`, canadensis_filter_config/src/lib.rs L168-171. -/
def merge (a b : Filter) : Filter :=
  let mask := mergeMasks a b
  Filter.new mask (a.id &&& mask)

/-- The index pairs visited by the nested loops, in order, canadensis_filter_config/src/lib.rs L227-228. -/
def pairs (n : Nat) : List (Nat × Nat) :=
  (List.range n).flatMap (fun i => (List.range' (i + 1) (n - (i + 1))).map (fun j => (i, j)))

/-- The loop body of the search, canadensis_filter_config/src/lib.rs L229-237.  The state is
`(max_rank, max_rank_indices)`.  The indices are in bounds, so `getD` never uses its default. -/
def searchStep (fs : List Filter) (s : Nat × (Nat × Nat)) (p : Nat × Nat) : Nat × (Nat × Nat) :=
  let f1 := fs.getD p.1 Filter.invalid
  let f2 := fs.getD p.2 Filter.invalid
  if f1.isValid && f2.isValid then
    let rank := (merge f1 f2).rank
    if rank ≥ s.1 then (rank, p) else s
  else s

/-- The search for the pair to merge, canadensis_filter_config/src/lib.rs L225-239. -/
def search (fs : List Filter) : Nat × Nat :=
  ((pairs fs.length).foldl (searchStep fs) (0, (0, 0))).2

/-- One iteration of the `while` loop: search, merge into the first, invalidate the second,
canadensis_filter_config/src/lib.rs L224-245. -/
def mergeOnce (fs : List Filter) : List Filter :=
  let p := search fs
  let merged := merge (fs.getD p.1 Filter.invalid) (fs.getD p.2 Filter.invalid)
  (fs.set p.1 merged).set p.2 Filter.invalid

/-- Number of valid filters, as counted by the debug assertions, canadensis_filter_config/src/lib.rs L192-195, L249-252. -/
def countValid (fs : List Filter) : Nat := fs.countP Filter.isValid

/-- `merge_filters`, canadensis_filter_config/src/lib.rs L220-255.  `valid` is the loop variable `valid_filters`; the loop runs while it exceeds
`maxFilters`.  With `debug = true` the result is `none` if the `debug_assert_eq!` at L247-253 fails. -/
def mergeLoop (debug : Bool) (maxFilters : Nat) : Nat → List Filter → Option (List Filter)
  | 0, fs => some fs
  | valid + 1, fs =>
    if valid + 1 > maxFilters then
      let fs' := mergeOnce fs
      if debug && valid ≠ countValid fs' then none
      else mergeLoop debug maxFilters valid fs'
    else some fs

/-- The inner `while` loop of `compact`, canadensis_filter_config/src/lib.rs L265-268. -/
def bubble (fs : List Filter) : Nat → List Filter
  | 0 => fs
  | j + 1 =>
    let a := fs.getD j Filter.invalid
    let b := fs.getD (j + 1) Filter.invalid
    if !a.isValid && b.isValid then bubble ((fs.set j b).set (j + 1) a) j else fs

/-- `compact`, canadensis_filter_config/src/lib.rs L258-270. -/
def compact (fs : List Filter) : List Filter :=
  (List.range' 1 (fs.length - 1)).foldl bubble fs

/-- `optimize`, canadensis_filter_config/src/lib.rs L180-217.  Returns the returned sub-slice and the contents of the whole slice
afterwards; `none` is a failed debug assertion (only with `debug = true`). -/
def optimize (debug : Bool) (ideal : List Filter) (maxFilters : Nat) :
    Option (List Filter × List Filter) :=
  if maxFilters = 0 then some ([], ideal)
  else
    match mergeLoop debug maxFilters ideal.length ideal with
    | none => none
    | some fs =>
      if debug && countValid fs > maxFilters then none
      else
        let fs := compact fs
        let valid := fs.takeWhile Filter.isValid
        let invalid := fs.dropWhile Filter.isValid
        if debug && !(valid.all Filter.isValid && !invalid.any Filter.isValid) then none
        else some (valid, fs)

end Verif.FilterConfig
