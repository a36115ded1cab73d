import Verif.Proof.Stream
/-
Property C49: buffered reading (/repo/lib/mes/__buffered_read.c, /repo/lib/linux/lseek.c, /repo/lib/posix/write.c).
-/
namespace Mes.Props
open Res Spec C

/-- A read gives the next bytes of the file, or fails and leaves the position. -/
def ReadSpec : Prop :=
  ∀ g f m p size content pos, Sees f content pos → p + size ≤ m.length →
    ∃ r f' m', read g f m p size = ok (r, f', m') ∧ (r = -1 ∧ Sees f' content pos ∨
      ∃ n : Nat, r = n ∧ Reads content pos size n ∧ Patched m m' p (slice content pos n) ∧ Sees f' content (pos + n))

/-- Where `lseek` goes. -/
def target (content : List Byte) (pos : Nat) (offset : Int) (whence : Nat) : Int :=
  (if whence = 0 then 0 else if whence = 1 then (pos : Int) else content.length) + offset

/-- `lseek` gives and sets the new position, or fails and leaves the position. -/
def LseekSpec : Prop :=
  ∀ f content pos offset whence, Sees f content pos → whence ≤ 2 →
    if 0 ≤ target content pos offset whence then ∃ f', lseek f offset whence = (target content pos offset whence, f') ∧ Sees f' content (target content pos offset whence).toNat
    else ∃ f', lseek f offset whence = (-1, f') ∧ Sees f' content pos

/-- C49: the program gets the bytes of the file one after the other, and the position is consistent. -/
def C49_full : Prop := ReadSpec ∧ LseekSpec

/-- A descriptor with one byte in the cache. -/
def oneCached : Fd := { content := [5, 6], pos := 1, calls := 0, size := 1, string := List.replicate 127 0 ++ [5], max := 128 }

theorem oneCached_sees : Sees oneCached [5, 6] 0 := ⟨rfl, rfl, by decide +kernel, .inr (by decide +kernel)⟩

/-- C49 does not hold when a seek fails: the cache has been thrown away, so that the bytes in it are skipped. -/
theorem C49_lseek_false : ¬ LseekSpec := by
  intro h
  have h1 := h oneCached [5, 6] 0 (-1) 0 oneCached_sees (by decide)
  rw [if_neg (by decide)] at h1
  obtain ⟨f', h2, h3⟩ := h1
  have hp : (lseek oneCached (-1) 0).2.pos = 1 := by decide
  have hs : (lseek oneCached (-1) 0).2.size = 0 := by decide
  rw [h2] at hp hs
  have := h3.place
  simp only at hp hs
  omega

/-- The system reports an error. -/
def failing : Chunks := fun _ => none

/-- Nor does it hold when the system reports an error after some bytes came from the cache: these are lost. -/
theorem C49_error_false : ¬ ReadSpec := by
  intro h
  obtain ⟨r, f', m', h1, h2⟩ := h failing oneCached [0, 0] 0 2 [5, 6] 0 oneCached_sees (by decide)
  have e : (match read failing oneCached [0, 0] 0 2 with
    | ok (r, f', _) => decide (r = -1 ∧ f'.pos = 1 ∧ f'.size = 0)
    | _ => false) = true := by decide +kernel
  rw [h1] at e
  obtain ⟨e1, e2, e3⟩ := of_decide_eq_true e
  rcases h2 with ⟨-, h2⟩ | ⟨n, h2, -⟩
  · have := h2.place; omega
  · omega

theorem C49_false : ¬ C49_full := fun h => C49_error_false h.1

/-- A read gives the next bytes of the file: at least one of them, unless none was asked for or the end is reached, and all that was asked
for if that fits into the cache; no other memory changes; and the position moves on by as many bytes. -/
theorem C49_read_partial {g : Chunks} {f : Fd} {m : Mem} {content : List Byte} {pos p size : Nat} (hg : NoErrors g) (h : Sees f content pos)
    (hp : p + size ≤ m.length) :
    ∃ (n : Nat) (f' : Fd), read g f m p size = ok ((n : Int), f', patch m p (slice content pos n)) ∧ Reads content pos size n ∧ Sees f' content (pos + n) ∧
      (size ≤ f.max → n = min size (content.length - pos)) := by
  obtain ⟨n, f', m', e1, e2, e3, e4, -, e5⟩ := read_ok hg h hp
  have hl : (slice content pos n).length ≤ n := by rw [slice_len_le]; omega
  have := e2.le
  rw [e3.eq_patch (by omega)] at e1
  exact ⟨n, f', e1, e2, e4, e5⟩

/-- `lseek` gives and sets the new position, if there is one. -/
theorem C49_lseek_partial {f : Fd} {content : List Byte} {pos whence : Nat} {offset : Int} (h : Sees f content pos) (hw : whence ≤ 2)
    (ht : 0 ≤ target content pos offset whence) :
    ∃ f', lseek f offset whence = (target content pos offset whence, f') ∧ Sees f' content (target content pos offset whence).toNat := by
  obtain ⟨f', e1, e2, -⟩ := lseek_ok h hw ht
  exact ⟨f', e1, e2⟩

/-- `write` writes at the position that the program sees, whatever was read ahead. -/
theorem C49_write_partial {g : Chunks} {f : Fd} {content : List Byte} {pos : Nat} (hg : NoErrors g) (h : Sees f content pos) (bs : List Byte) :
    ∃ (n : Nat) (f' : Fd) (content' : List Byte), write g f bs = ((n : Int), f') ∧ n ≤ bs.length ∧ (n = 0 → bs = []) ∧ Sees f' content' (pos + n) ∧
      ∀ i, content'[i]? = if pos ≤ i ∧ i < pos + n then bs[i - pos]? else if i < content.length then content[i]? else if i < pos ∧ n ≠ 0 then some 0 else none :=
  write_ok hg h bs

/-- A whole history: whatever the sizes of the reads, and in whatever pieces the system delivers, the bytes that the program gets are the
bytes of the file from its position on; and a read that asks for something and gives nothing is one at the end of the file. -/
theorem C49_history_partial {g : Chunks} {f : Fd} {content : List Byte} {pos : Nat} (hg : NoErrors g) (h : Sees f content pos) (sizes : List Nat) :
    ∃ ls f', readMany g f sizes = ok (ls, f') ∧ ls.length = sizes.length ∧ ls.flatten = slice content pos ls.flatten.length ∧
      Sees f' content (pos + ls.flatten.length) ∧
      (∀ i size l, sizes[i]? = some size → ls[i]? = some l → l.length ≤ size ∧ (l = [] → size ≠ 0 → (ls.take i).flatten = content.drop pos)) := by
  obtain ⟨ls, f', e1, e2, e3, e4, -, e6⟩ := readMany_ok hg sizes f pos h
  refine ⟨ls, f', e1, e2, e3, e4, fun i size l hs hl => ⟨(e6 i size l hs hl).1, fun h1 h2 => ?_⟩⟩
  have h3 := ((e6 i size l hs hl).2 h1).resolve_left h2
  have h4 : (ls.take i).flatten = (ls.flatten).take (ls.take i).flatten.length := by
    conv => rhs; arg 2; rw [← List.take_append_drop i ls, List.flatten_append]
    rw [List.take_left']
    rfl
  rw [h4, e3]
  unfold slice
  rw [List.take_take, List.take_of_length_le]
  have h5 : (ls.take i).flatten.length ≤ ls.flatten.length := by
    conv => rhs; rw [← List.take_append_drop i ls, List.flatten_append, List.length_append]
    omega
  rw [List.length_drop]
  omega

/-- A file that has just been opened meets the hypotheses. -/
theorem opened_sees {content : List Byte} {string : Mem} {max : Nat} (h : string.length = 128) (hm : max ≤ 128) :
    Sees { content := content, pos := 0, calls := 0, size := 0, string := string, max := max } content 0 :=
  ⟨rfl, rfl, ⟨h, hm, Nat.zero_le _⟩, .inl rfl⟩

/-- One byte at a time from the system, a cache of 4 bytes, and reads of 3, 6 and 2 bytes. -/
example : (match readMany (fun _ => some 1) { content := [1, 2, 3, 4, 5, 6], pos := 0, calls := 0, size := 0, string := List.replicate 128 0, max := 4 } [3, 6, 2, 2, 1] with
    | ok (ls, _) => decide (ls = [[1, 2, 3], [4], [5, 6], [], []])
    | _ => false) = true := by decide +kernel

end Mes.Props
