import Verif.Proof.Directory
/- Property C71: reading directories, /repo/lib/dirent/readdir.c. -/
namespace Mes.Props
open Mes.C Res Spec

/-- Each call of `readdir` gives the next entry that is not deleted, or a null pointer at an error or at the end, however the entries are cut into blocks. -/
theorem C71_readdir (w : Nat) (errno : Int) (as : List DirAnswer) (d : Dir) (items : List DirItem) (h : DirStream w d as items) :
    DirGives w errno items (readdir w as errno d) := readdir_ok h

/-- A new stream has all the items. -/
theorem opendir_stream (w allocation : Nat) (blocks : List DirBlock) (h : ∀ b ∈ blocks, b.Ok w allocation) :
    DirStream w (opendir allocation) (blocks.map (DirBlock.answer w)) (blocks.flatMap DirBlock.items) :=
  ⟨[], blocks, rfl, rfl, by simp, fun i hi => absurd hi (by simp), rfl, Nat.zero_le _, by
    show ∀ b ∈ blocks, b.Ok w (List.replicate allocation 0).length
    rw [List.length_replicate]
    exact h⟩

theorem flatten_items (blocks : List (List DirRecord)) : (blocks.map DirBlock.entries).flatMap DirBlock.items = blocks.flatten.map DirItem.entry := by
  induction blocks with
  | nil => rfl
  | cons b bs ih => rw [List.map_cons, List.flatMap_cons, ih, List.flatten_cons, List.map_append]; rfl

/-- A program that lists a directory gets the name of every file that is not deleted, once, in the order of the directory, for every way to cut the
directory into blocks and every size of the buffer that the blocks fit in. -/
theorem C71_list (w allocation fuel : Nat) (errno : Int) (blocks : List (List DirRecord)) (h : ∀ b ∈ blocks, (DirBlock.entries b).Ok w allocation)
    (hf : blocks.flatten.length < fuel) :
    ∃ errno', listDir w fuel ((blocks.map DirBlock.entries).map (DirBlock.answer w)) errno (opendir allocation) = ok (fileNames blocks.flatten, errno') := by
  have hs := opendir_stream w allocation (blocks.map DirBlock.entries) (by
    intro b hb
    obtain ⟨x, hx, rfl⟩ := List.mem_map.1 hb
    exact h x hx)
  rw [flatten_items] at hs
  obtain ⟨e, h1, -⟩ := listDir_ok w blocks.flatten [] fuel _ errno _ (by rw [List.append_nil]; exact hs) hf (.inl rfl)
  exact ⟨e, h1⟩

/-- If reading fails, the names before the error are listed and `errno` says what happened. -/
theorem C71_error (w allocation fuel : Nat) (errno e : Int) (blocks : List (List DirRecord)) (rest : List DirBlock)
    (h : ∀ b ∈ blocks, (DirBlock.entries b).Ok w allocation) (hr : ∀ b ∈ rest, b.Ok w allocation) (hf : blocks.flatten.length < fuel) :
    listDir w fuel ((blocks.map DirBlock.entries ++ .failure e :: rest).map (DirBlock.answer w)) errno (opendir allocation) = ok (fileNames blocks.flatten, e) := by
  have hs := opendir_stream w allocation (blocks.map DirBlock.entries ++ .failure e :: rest) (by
    intro b hb
    rcases List.mem_append.1 hb with hb | hb
    · obtain ⟨x, hx, rfl⟩ := List.mem_map.1 hb
      exact h x hx
    · rcases List.mem_cons.1 hb with rfl | hb
      · trivial
      · exact hr b hb)
  rw [List.flatMap_append, flatten_items, List.flatMap_cons] at hs
  obtain ⟨e', h1, h2⟩ := listDir_ok w blocks.flatten _ fuel _ errno _ hs hf (.inr ⟨e, _, rfl⟩)
  rw [h1, h2 e _ rfl]

/-- Entries "a", a deleted one, and "b", for a `long` of 4 bytes. -/
def entryA : DirRecord := ⟨7, 16, [97], [0, 0, 0, 4]⟩
def entryGone : DirRecord := ⟨0, 32, [120], [0, 0, 0, 4]⟩
def entryB : DirRecord := ⟨9, 48, [98], [0, 0, 0, 8]⟩

theorem entries_ok : (DirBlock.entries [entryA, entryGone]).Ok 4 40 ∧ (DirBlock.entries [entryB]).Ok 4 40 := by
  have h : ∀ r ∈ [entryA, entryGone, entryB], r.Fits 4 := by
    intro r hr
    simp only [List.mem_cons, List.not_mem_nil, or_false] at hr
    rcases hr with rfl | rfl | rfl <;> exact ⟨by decide, by decide, by decide, by decide⟩
  exact ⟨⟨by simp, fun r hr => h r (by simp only [List.mem_cons, List.not_mem_nil, or_false] at hr ⊢; rcases hr with h | h <;> simp [h]), by decide⟩,
    ⟨by simp, fun r hr => h r (by simp only [List.mem_cons, List.not_mem_nil, or_false] at hr ⊢; simp [hr]), by decide⟩⟩

/-- In two blocks -/
example : ∃ e, listDir 4 4 [.block (entryA.bytes 4 ++ entryGone.bytes 4), .block (entryB.bytes 4)] 0 (opendir 40) = ok ([[97], [98]], e) := by
  have := C71_list 4 40 4 0 [[entryA, entryGone], [entryB]] (by
    intro b hb
    simp only [List.mem_cons, List.not_mem_nil, or_false] at hb
    rcases hb with rfl | rfl
    · exact entries_ok.1
    · exact entries_ok.2) (by decide)
  simpa [DirBlock.answer, fileNames, entryA, entryGone, entryB] using this

/-- `readdir` leaves `errno` alone unless there is an error. -/
def C71_errno_full : Prop :=
  ∀ w as errno d items, DirStream w d as items → (∀ i ∈ items, ∃ r, i = DirItem.entry r) →
    ∃ p as' d', readdir w as errno d = ok (p, as', errno, d')

/-- It does not: a system call that succeeds sets it to 0. -/
theorem C71_errno_false : ¬ C71_errno_full := by
  intro h
  obtain ⟨p, as', d', e⟩ := h 4 _ 5 (opendir 40) _ (opendir_stream 4 40 [.entries [entryB]] (by
    intro b hb
    simp only [List.mem_cons, List.not_mem_nil, or_false] at hb
    subst hb
    exact entries_ok.2)) (by simp [DirBlock.items])
  have : (match readdir 4 [.block (entryB.bytes 4)] 5 (opendir 40) with | ok (_, _, e, _) => e | _ => 5) = 0 := by decide +kernel
  simp only [List.map_cons, List.map_nil, DirBlock.answer, List.flatMap_cons, List.flatMap_nil, List.append_nil] at e
  rw [e] at this
  exact absurd (show (5 : Int) = 0 from this) (by decide)

end Mes.Props
