import Verif.Model.Block
/-
Model of `Block.Bytes` (consensus/block.go:82-128) run by several goroutines on one block.

`PropagateBlock` (p2p/pool.go:183-197) puts the same `*Block` into the send queue of every peer that gets it, and
the write goroutine of each peer (p2p/peer.go:131-150) calls `Bytes`, which sorts the three lists in place. Nothing
locks the block.

`sort.Sort` only sees its argument through `Len`, `Less` and `Swap`. A run of it on a list of given length is
therefore a tree of calls of `Less` and `Swap` (`Prog`), whatever the algorithm and the version of Go. The loads and
stores of list elements are the atomic steps. Simplification: an element is loaded and stored whole; in Go an element
has several words, so more can go wrong.
-/
namespace Gringo.Shared

/-- What `sort.Sort` does: calls of `Less` and `Swap`, depending on the answers of `Less`. -/
inductive Prog where
  | done
  | less (i j : Nat) (k : Bool → Prog)
  | swap (i j : Nat) (k : Prog)

/-- One run of `sort.Sort` after the other: consensus/block.go:102-104. -/
def Prog.seq : Prog → Prog → Prog
  | .done, q => q
  | .less i j k, q => .less i j fun b => (k b).seq q
  | .swap i j k, q => .swap i j (k.seq q)

/-- The same program on a list that lies `d` places further on in memory. -/
def Prog.shift (d : Nat) : Prog → Prog
  | .done => .done
  | .less i j k => .less (d + i) (d + j) fun b => (k b).shift d
  | .swap i j k => .swap (d + i) (d + j) (k.shift d)

/-- The state of a goroutine in `Bytes`. -/
inductive Thread (α : Type) where
  /-- about to make the next call of the program -/
  | run (p : Prog)
  /-- in `Less(i, j)`: `m[i]` has been loaded, `m[j]` not yet (block.go:515-517, 636-638, 766-768) -/
  | lessLoaded (x : α) (j : Nat) (k : Bool → Prog)
  /-- in `Swap(i, j)`, that is `m[i], m[j] = m[j], m[i]`: `m[j]` has been loaded (block.go:519-521, 640-642,
  770-772) -/
  | swapLoaded (y : α) (i j : Nat) (k : Prog)
  /-- both have been loaded -/
  | swapBoth (y x : α) (i j : Nat) (k : Prog)
  /-- `m[i]` has been stored -/
  | swapStored (x : α) (j : Nat) (k : Prog)
  /-- in the `for … range` loops that write the elements, block.go:107-125: `out` has been written -/
  | emit (out : List α)
  /-- all elements have been written -/
  | finished (out : List α)

variable {α : Type}

/-- One step of a goroutine on the shared list. -/
inductive TStep (less : α → α → Bool) : List α × Thread α → List α × Thread α → Prop where
  | lessFirst {m i j k x} (h : m[i]? = some x) :
      TStep less (m, .run (.less i j k)) (m, .lessLoaded x j k)
  | lessSecond {m x j k y} (h : m[j]? = some y) :
      TStep less (m, .lessLoaded x j k) (m, .run (k (less x y)))
  | swapFirst {m i j k y} (h : m[j]? = some y) :
      TStep less (m, .run (.swap i j k)) (m, .swapLoaded y i j k)
  | swapSecond {m y i j k x} (h : m[i]? = some x) :
      TStep less (m, .swapLoaded y i j k) (m, .swapBoth y x i j k)
  | storeFirst {m y x i j k} (h : i < m.length) :
      TStep less (m, .swapBoth y x i j k) (m.set i y, .swapStored x j k)
  | storeSecond {m x j k} (h : j < m.length) :
      TStep less (m, .swapStored x j k) (m.set j x, .run k)
  | sorted {m} : TStep less (m, .run .done) (m, .emit [])
  | write {m out x} (h : m[out.length]? = some x) :
      TStep less (m, .emit out) (m, .emit (out ++ [x]))
  | last {m out} (h : m.length ≤ out.length) : TStep less (m, .emit out) (m, .finished out)

/-- The shared list and all goroutines. -/
structure Sys (α : Type) where
  mem : List α
  threads : List (Thread α)

/-- Any goroutine makes a step. -/
inductive Step (less : α → α → Bool) : Sys α → Sys α → Prop where
  | mk {s : Sys α} {t : Nat} {th th' : Thread α} {m' : List α} (h : s.threads[t]? = some th)
      (step : TStep less (s.mem, th) (m', th')) : Step less s { mem := m', threads := s.threads.set t th' }

/-- Any schedule. -/
inductive Steps (less : α → α → Bool) : Sys α → Sys α → Prop where
  | refl {s} : Steps less s s
  | tail {s t u} (h : Steps less s t) (step : Step less t u) : Steps less s u

/-- The program run by one goroutine with nobody else around. `none`: an index is out of range. -/
def Prog.exec (less : α → α → Bool) : Prog → List α → Option (List α)
  | .done, m => some m
  | .less i j k, m =>
    match m[i]?, m[j]? with
    | some x, some y => (k (less x y)).exec less m
    | _, _ => none
  | .swap i j k, m =>
    match m[i]?, m[j]? with
    | some x, some y => k.exec less ((m.set i y).set j x)
    | _, _ => none

/-- The elements of a block, in the order in which `Bytes` writes them. -/
inductive Item (E : Env) where
  | input (i : Input)
  | output (o : Output E)
  | kernel (k : TxKernel)

variable {E : Env}

/-- consensus/block.go:108, 115, 122 -/
def Item.bytes : Item E → Bytes
  | .input i => i.bytes
  | .output o => o.bytes
  | .kernel k => k.bytes E

/-- consensus/block.go:515-517, 636-638, 766-768: the three `Less`. Elements of different lists are never
compared. -/
def Item.less : Item E → Item E → Bool
  | .input a, .input b => a.less E b
  | .output a, .output b => a.less b
  | .kernel a, .kernel b => a.less E b
  | _, _ => false

/-- The three lists of a block one behind the other. -/
def items (b : Block E) : List (Item E) :=
  b.inputs.map .input ++ (b.outputs.map .output ++ b.kernels.map .kernel)

/-- consensus/block.go:102-104: `sort.Sort` on the three lists, given what it does on each. -/
def sorting (b : Block E) (inputs outputs kernels : Prog) : Prog :=
  inputs.seq ((outputs.shift b.inputs.length).seq (kernels.shift (b.inputs.length + b.outputs.length)))

/-- consensus/block.go:83-99 and 106-127: what a goroutine writes around the elements. The header and the lengths
are read before the sort and change in no goroutine. -/
def wire (b : Block E) (out : List (Item E)) : Out Bytes := do
  let h ← b.header.bytes
  pure (h ++ (be64 (UInt64.ofNat b.inputs.length) ++ be64 (UInt64.ofNat b.outputs.length) ++
    be64 (UInt64.ofNat b.kernels.length)) ++ out.flatMap Item.bytes)

/-- `n` goroutines about to serialise the block. -/
def begin_ (b : Block E) (inputs outputs kernels : Prog) (n : Nat) : Sys (Item E) :=
  { mem := items b, threads := List.replicate n (.run (sorting b inputs outputs kernels)) }

/-- Go's `insertionSort`, the inner loop: `for ; j > 0 && Less(j, j-1); j-- { Swap(j, j-1) }`, then `k`. -/
def insert (k : Prog) : Nat → Prog
  | 0 => k
  | j + 1 => .less (j + 1) j fun b => if b then .swap (j + 1) j (insert k j) else k

/-- Go's `insertionSort`, the outer loop with `n` elements to go, from index `i` on. It is what `sort.Sort` does with
short lists (up to 6 elements in every version of Go, up to 12 since Go 1.19). -/
def insertionFrom : Nat → Nat → Prog
  | 0, _ => .done
  | n + 1, i => insert (insertionFrom n (i + 1)) i

@[inherit_doc insertionFrom] def insertionSort (n : Nat) : Prog := insertionFrom (n - 1) 1

end Gringo.Shared
