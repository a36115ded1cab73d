import Verif.Proof.Blocks
/-
Property C47: malloc, calloc and realloc (/repo/lib/linux/malloc.c, /repo/lib/stdlib/calloc.c, realloc.c).
-/
namespace Mes.Props
open Res Spec C

/-- A call either fails with a null pointer and leaves the blocks alone, or returns a new block. -/
def AllocOutcome (bs : List Block) (size : Nat) (want : List Byte → Prop) (r : Nat × Proc) : Prop :=
  r.1 = 0 ∧ Has r.2 bs ∨ ∃ c, c.length = size ∧ want c ∧ Has r.2 ((r.1, c) :: bs)

/-- C47: whatever size is asked for, the new block is aligned, below the break and apart from the other blocks, whose contents
stay; a block of calloc is zero, and a block of realloc begins with the old contents. -/
def C47_full : Prop :=
  ∀ s bs, Good s bs →
    (∀ size, size < 2 ^ 64 → AllocOutcome bs size (fun _ => True) (malloc s size)) ∧
    (∀ nmemb size, nmemb < 2 ^ 64 → size < 2 ^ 64 → ∃ r, calloc s nmemb size = ok r ∧ AllocOutcome bs (nmemb * size) (fun c => ∀ b ∈ c, b = 0) r) ∧
    (∀ b ∈ bs, ∀ size, size < 2 ^ 64 → ∃ r, realloc s b.1 size = ok r ∧ AllocOutcome bs size (fun c => ∀ j, j < b.2.length → j < size → c[j]? = b.2[j]?) r)

/-- A result of which something can be computed. -/
def okThat {α : Type} (r : Res α) (p : α → Bool) : Bool := match r with
  | ok x => p x
  | _ => false

/-- A small process: the heap starts at 16, the break is 32 and may go up to 64, and pages have 4 bytes. -/
def smallProc : Proc := { start := 16, limit := 64, page := 4, top := 32, mem := List.replicate 32 7, cur := 0 }

theorem smallProc_good : Good smallProc [] :=
  ⟨⟨by simp, .nil, by simp, by simp⟩, by decide, by decide, by decide, .inl ⟨rfl, rfl⟩⟩

/-- C47 does not hold when memory is exhausted: the system call returns the old break rather than −1, so that malloc returns a
block above the break. -/
theorem C47_false : ¬ C47_full := by
  intro h
  rcases (h smallProc [] smallProc_good).1 100 (by decide) with ⟨h, -⟩ | ⟨c, h1, -, h2⟩
  · exact absurd h (by decide)
  · have h3 : (malloc smallProc 100).1 = 32 := by decide
    have h4 : (malloc smallProc 100).2.top = 32 := by decide
    have := (h2.below _ (List.mem_cons_self ..)).2
    simp only [h1, h3, h4] at this
    omega

/-- Nor does it hold for a size near 2⁶⁴: the sum wraps around, the break goes down, and the memory of an earlier block is lost. -/
theorem C47_wrap_false : ∃ s p c, Good s [(p, c)] ∧ ¬ AllocOutcome [(p, c)] (2 ^ 64 - 16) (fun _ => True) (malloc s (2 ^ 64 - 16)) := by
  obtain ⟨p, s', c, h1, h2, h3, -⟩ := malloc_ok (size := 24) smallProc_good (by decide)
  refine ⟨s', p, c, h3, ?_⟩
  have e1 : (malloc smallProc 24).1 = 32 := by decide
  have e2 : (malloc (malloc smallProc 24).2 (2 ^ 64 - 16)).1 ≠ 0 := by decide
  have e3 : (malloc (malloc smallProc 24).2 (2 ^ 64 - 16)).2.top < 56 := by decide
  rw [h1] at e1 e2 e3
  simp only at e1 e2 e3
  rintro (⟨h, -⟩ | ⟨c', -, -, h⟩)
  · exact e2 h
  · have := (h.below (p, c) (by simp)).2
    simp only [h2] at this
    omega

/-- And calloc does not notice that the product of its arguments is too large: the block is smaller than asked for. -/
theorem C47_calloc_false : ∃ p s', calloc smallProc (2 ^ 63) 2 = ok (p, s') ∧ p ≠ 0 ∧ s'.top < p + 2 ^ 63 * 2 := by
  have h : okThat (calloc smallProc (2 ^ 63) 2) fun r => decide (r.1 ≠ 0 ∧ r.2.top < r.1 + 2 ^ 63 * 2) := by decide
  revert h
  cases calloc smallProc (2 ^ 63) 2 with
  | ok r => intro h; exact ⟨r.1, r.2, rfl, of_decide_eq_true h⟩
  | _ => intro h; cases h

/-- As long as there is room, malloc returns a new block: aligned, below the break, apart from the earlier blocks, and these keep
their contents.  Missing for the full property: the room. -/
theorem C47_malloc_partial {s : Proc} {bs : List Block} {size : Nat} (h : Good s bs) (hr : s.next + size + 7 ≤ s.limit) :
    ∃ p s' c, malloc s size = (p, s') ∧ p ≠ 0 ∧ c.length = size ∧ Good s' ((p, c) :: bs) := by
  obtain ⟨p, s', c, e1, e2, e3, -, e5, -⟩ := malloc_ok h hr
  exact ⟨p, s', c, e1, by omega, e2, e3⟩

/-- A block of calloc is zero. -/
theorem C47_calloc_partial {s : Proc} {bs : List Block} {nmemb size : Nat} (h : Good s bs) (hr : s.next + nmemb * size + 7 ≤ s.limit) :
    ∃ p s', calloc s nmemb size = ok (p, s') ∧ Good s' ((p, List.replicate (nmemb * size) 0) :: bs) := by
  obtain ⟨p, s', e1, e2, -⟩ := calloc_ok h hr
  exact ⟨p, s', e1, e2⟩

/-- A block of realloc begins with the contents of the old one, as far as they fit. -/
theorem C47_realloc_partial {s : Proc} {bs : List Block} {size p : Nat} {old : List Byte} (h : Good s bs) (hb : (p, old) ∈ bs)
    (hr : s.next + size + 7 ≤ s.limit) :
    ∃ p' s' c, realloc s p size = ok (p', s') ∧ c.length = size ∧ (∀ j, j < old.length → j < size → c[j]? = old[j]?) ∧ Good s' ((p', c) :: bs) := by
  obtain ⟨p', s', c, e1, e2, e3, e4, -⟩ := realloc_ok h hb hr
  exact ⟨p', s', c, e1, e2, e3, e4⟩

/-- A whole history: a program that asks for blocks in any order and of any size, writes to its blocks and to no other memory, and
needs no more than there is, runs without undefined behaviour; at the end all of its blocks are aligned, apart and below the break,
and hold what the program wrote there. -/
theorem C47_history_partial {s : Proc} {bs : List Block} {rs : List Request} (h : Good s bs) (hl : Legal (bs.map fun b => b.2.length) rs)
    (hr : s.next + (rs.map Request.need).sum ≤ s.limit) :
    ∃ s' bs', serveAll s (bs.map (·.1)) rs = ok (s', bs'.map (·.1)) ∧ Has s' bs' ∧ Effects (bs.map (·.2)) rs (bs'.map (·.2)) := by
  obtain ⟨s', bs', e1, e2, e3⟩ := serveAll_ok rs h hl hr
  exact ⟨s', bs', e1, e2.has, e3⟩

/-- The hypotheses are met by a program with all four requests. -/
example : ∃ rs : List Request, rs.length = 5 ∧ Legal [] rs ∧ smallProc.next + (rs.map Request.need).sum ≤ smallProc.limit ∧
    okThat (serveAll smallProc [] rs) (fun r => r.2 = [40, 40, 32] ∧ slice r.1.mem 40 2 = [5, 0]) :=
  ⟨[.calloc 1 2, .malloc 0, .store 1 0 5, .realloc 1 2, .store 0 1 0], rfl, ⟨⟨2, rfl, by decide⟩, by decide, ⟨2, rfl, by decide⟩, trivial⟩, by decide, by decide⟩

end Mes.Props
