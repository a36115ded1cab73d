import Verif.Spec.Bytes
import Verif.Model.CAlloc
/-
The blocks that a program got from the allocator, and what it may expect of them.
-/
namespace Mes.Spec
open Mes.C

/-- A block: its address and its contents. -/
abbrev Block := Nat × List UInt8

/-- The process has the blocks `bs`, and no other call of the allocator happened: they are aligned, do not overlap, lie between the
start of the heap and the break, and have these contents. -/
structure Has (s : Proc) (bs : List Block) : Prop where
  aligned : ∀ b ∈ bs, 8 ∣ b.1
  apart : bs.Pairwise fun b c => Disjoint b.1 b.2.length c.1 c.2.length
  below : ∀ b ∈ bs, s.start ≤ b.1 ∧ b.1 + b.2.length ≤ s.top
  contents : ∀ b ∈ bs, At s.mem b.1 b.2

/-- The state of the allocator: before the first call there are no blocks; after it they all lie below `__brk`. -/
structure Good (s : Proc) (bs : List Block) : Prop where
  has : Has s bs
  start : 0 < s.start ∧ s.start ≤ s.top
  limit : s.top ≤ s.limit ∧ s.limit < 2 ^ 63
  pages : 0 < s.page ∧ s.mem.length = pageEnd s.page s.top
  cur : s.cur = 0 ∧ bs = [] ∨ s.start ≤ s.cur ∧ s.cur ≤ s.top ∧ ∀ b ∈ bs, b.1 + b.2.length ≤ s.cur

/-- What the program does. -/
inductive Request where
  | malloc (size : Nat)
  | calloc (nmemb size : Nat)
  /-- `realloc` of the block with the given number, the newest one is 0 -/
  | realloc (i size : Nat)
  /-- assignment to byte `k` of the block -/
  | store (i k : Nat) (b : UInt8)

/-- The bytes that a request may need. -/
def Request.need : Request → Nat
  | .malloc n => n + 7
  | .calloc k n => k * n + 7
  | .realloc _ n => n + 7
  | .store .. => 0

/-- The program runs on the model; `as` are the addresses of the blocks. -/
def serve (s : Proc) (as : List Nat) : Request → Res (Proc × List Nat)
  | .malloc n => let (p, s) := C.malloc s n; .ok (s, p :: as)
  | .calloc k n => do
    let (p, s) ← C.calloc s k n
    .ok (s, p :: as)
  | .realloc i n => do
    let (p, s) ← C.realloc s (as.getD i 0) n
    .ok (s, p :: as)
  | .store i k b => do
    let s ← C.store s (as.getD i 0 + k) b
    .ok (s, as)

def serveAll (s : Proc) (as : List Nat) : List Request → Res (Proc × List Nat)
  | [] => .ok (s, as)
  | r :: rs => do
    let (s, as) ← serve s as r
    serveAll s as rs

/-- What a request does to the contents of the blocks.  The old block of a `realloc` is not used any more, but keeps its
contents. -/
inductive Effect : List (List UInt8) → Request → List (List UInt8) → Prop
  | malloc {cs c n} (h : c.length = n) : Effect cs (.malloc n) (c :: cs)
  | calloc {cs k n} : Effect cs (.calloc k n) (List.replicate (k * n) 0 :: cs)
  | realloc {cs i n old c} (hi : cs[i]? = some old) (hl : c.length = n) (h : ∀ j, j < old.length → j < n → c[j]? = old[j]?) :
      Effect cs (.realloc i n) (c :: cs)
  | store {cs i k b old} (hi : cs[i]? = some old) : Effect cs (.store i k b) (cs.set i (old.set k b))

inductive Effects : List (List UInt8) → List Request → List (List UInt8) → Prop
  | nil {cs} : Effects cs [] cs
  | cons {cs cs' cs'' r rs} (h : Effect cs r cs') (hs : Effects cs' rs cs'') : Effects cs (r :: rs) cs''

/-- The requests name blocks and bytes that exist; `ls` are the lengths of the blocks. -/
def Legal (ls : List Nat) : List Request → Prop
  | [] => True
  | .malloc n :: rs => Legal (n :: ls) rs
  | .calloc k n :: rs => Legal (k * n :: ls) rs
  | .realloc i n :: rs => i < ls.length ∧ Legal (n :: ls) rs
  | .store i k _ :: rs => (∃ l, ls[i]? = some l ∧ k < l) ∧ Legal ls rs

end Mes.Spec
