import Verif.Proof.Stdio
import Verif.Props.LibcRead
/-
Properties of input streams: C64.
-/
namespace Mes.Props
open Mes.C Res Spec

/-- A read of items gives all items unless the file ends. -/
def FreadSpec : Prop :=
  ∀ (g : Chunks) (s : Stream) (content l : List Byte) (m : Mem) (data size count : Nat), NoErrors g → Ahead s content l → size ≠ 0 →
    data + size * count ≤ m.length →
    ∃ s' m', fread g m data size count s = ok (min (size * count) l.length / size, s', m')

/-- The position of a stream, as `ftell` gives it, is the one of the next character. -/
def FtellSpec : Prop :=
  ∀ (s : Stream) (content : List Byte) (pos : Nat) (pushed : Option Byte), StreamAt s content pos pushed → pos ≤ content.length →
    pushed.toList.length ≤ pos → (ftell s).1 = (pos : Int) - pushed.toList.length

/-- After `fseek` to a place in the file the next character is the one at that place. -/
def FseekSpec : Prop :=
  ∀ (s : Stream) (content l : List Byte) (offset : Nat), Ahead s content l → offset ≤ content.length →
    ∃ s', fseek s offset 0 = (0, s') ∧ Ahead s' content (content.drop offset)

/-- The character that was read last can be pushed back, also after `feof`. -/
def UngetcSpec : Prop :=
  ∀ (g : Chunks) (s : Stream) (content l : List Byte) (b : Byte), NoErrors g → Ahead s content (b :: l) →
    ∃ s1 s2 s3, fgetc g s = ok ((b.toNat : Int), s1) ∧ feof g s1 = ok (decide (l = []), s2) ∧ ungetc (b.toNat : Int) s2 = ok ((b.toNat : Int), s3) ∧
      Ahead s3 content (b :: l)

/-- C64, the full property; the parts about characters and lines are `C64_getc` and `C64_gets`. -/
def C64_full : Prop := FreadSpec ∧ FtellSpec ∧ FseekSpec ∧ UngetcSpec

/-- `fgetc` gives the next byte as a number from 0 to 255, or EOF at the end. -/
theorem C64_getc (g : Chunks) (s : Stream) (content l : List Byte) (hg : NoErrors g) (h : Ahead s content l) :
    ∃ s', s'.back = -1 ∧ fgetc g s = ok (match l with | [] => -1 | b :: _ => (b.toNat : Int), s') ∧ Ahead s' content l.tail := by
  obtain ⟨s', hb, h1⟩ := fgetc_ok hg h
  cases l with
  | nil => exact ⟨s', hb, h1.1, h1.2⟩
  | cons b l => exact ⟨s', hb, h1.1, h1.2⟩

/-- A program that reads characters until EOF gets all of them, in their order. -/
theorem C64_all (g : Chunks) (s : Stream) (content l : List Byte) (fuel : Nat) (hg : NoErrors g) (h : Ahead s content l) (hf : l.length < fuel) :
    ∃ s', getAll g fuel s = ok (l.map (fun b => (b.toNat : Int)), s') := by
  obtain ⟨s', h1, -⟩ := getAll_ok hg l s fuel h hf
  exact ⟨s', h1⟩

/-- A character can be pushed back when none is: it is the next one. -/
theorem C64_ungetc_partial (s : Stream) (content l : List Byte) (b : Byte) (h : Ahead s content l) (hb : s.back = -1) :
    ∃ s', ungetc (b.toNat : Int) s = ok ((b.toNat : Int), s') ∧ Ahead s' content (b :: l) := ungetc_ok h hb b

/-- `feof` is true when there is nothing left to read, and changes nothing that can be read. -/
theorem C64_feof (g : Chunks) (s : Stream) (content l : List Byte) (hg : NoErrors g) (h : Ahead s content l) :
    ∃ s', feof g s = ok (decide (l = []), s') ∧ Ahead s' content l := feof_ok hg h

/-- `fgets` with a buffer of at least two bytes stores the first line, or as much of it as fits, with a NUL behind it, and nothing else;
at the end it gives the null pointer and stores nothing. -/
theorem C64_gets (g : Chunks) (s : Stream) (content l : List Byte) (m : Mem) (a count : Nat) (hg : NoErrors g) (h : Ahead s content l)
    (hc : 2 ≤ count) (hp : a + count ≤ m.length) :
    ∃ s', Ahead s' content (l.drop (lineOf (count - 1) l).length) ∧
      fgets g m a count s = if l = [] then ok (none, s', m) else ok (some a, s', patch m a (lineOf (count - 1) l ++ [0])) := by
  obtain ⟨s', -, h1, h2⟩ := fgets_ok hg h hc hp
  refine ⟨s', h1, ?_⟩
  by_cases hl : l = []
  · rw [if_pos hl] at h2 ⊢
    exact h2
  · rw [if_neg hl] at h2 ⊢
    obtain ⟨m', h2, h3⟩ := h2
    have := lineOf_length (count - 1) l
    rw [h2, h3.eq_patch (by simp; omega)]

/-- A program that calls `fgets` until it gives the null pointer gets the lines of a text without NUL characters. -/
theorem C64_lines (g : Chunks) (s : Stream) (content l : List Byte) (m : Mem) (a count fuel : Nat) (hg : NoErrors g) (h : Ahead s content l)
    (hz : ∀ b ∈ l, b ≠ 0) (hc : 2 ≤ count) (hp : a + count ≤ m.length) (hf : l.length < fuel) :
    ∃ ls s' m', getLines g a count fuel m s = ok (ls, s', m') ∧ Lines (count - 1) l ls ∧ Ahead s' content [] :=
  getLines_ok hg hc l.length l m s fuel rfl h hz hp hf

/-- `fread` gives the next bytes, and the number of whole items among them; nothing else in memory changes.  It gives all that was
asked for, or all that there is, if that fits into the cache of the descriptor. -/
theorem C64_fread_partial (g : Chunks) (s : Stream) (content l : List Byte) (m : Mem) (data size count : Nat) (hg : NoErrors g)
    (h : Ahead s content l) (hs : size ≠ 0) (hp : data + size * count ≤ m.length) :
    ∃ (k : Nat) (s' : Stream), fread g m data size count s = ok (k / size, s', patch m data (l.take k)) ∧ k ≤ size * count ∧ k ≤ l.length ∧
      (k = 0 → count = 0 ∨ l = []) ∧ Ahead s' content (l.drop k) ∧ (size * count ≤ s.fd.max → k = min (size * count) l.length) := by
  obtain ⟨k, s', m', h1, h2, h3, h4, h5, h6, h7⟩ := fread_ok hg h hs hp
  refine ⟨k, s', ?_, h2, h3, h4, h6, h7⟩
  rw [h1, h5.eq_patch (by rw [List.length_take]; omega)]

/-- When nothing is pushed back, `fseek` goes to the place, and `ftell` gives it. -/
theorem C64_seek_partial (s : Stream) (content : List Byte) (pos whence : Nat) (offset : Int) (h : StreamAt s content pos none) (hw : whence ≤ 2)
    (ht : 0 ≤ target content pos offset whence) :
    ∃ s', fseek s offset whence = (0, s') ∧ StreamAt s' content (target content pos offset whence).toNat none := by
  obtain ⟨f', h1, h2⟩ := C49_lseek_partial h.sees hw ht
  refine ⟨{ s with fd := f' }, ?_, h2, h.back⟩
  unfold fseek
  rw [h1]
  simp [ht]

theorem C64_tell_partial (s : Stream) (content : List Byte) (pos : Nat) (h : StreamAt s content pos none) :
    ∃ s', ftell s = ((pos : Int), s') ∧ StreamAt s' content pos none := by
  obtain ⟨f', h1, h2⟩ := C49_lseek_partial (offset := 0) (whence := 1) h.sees (by omega) (by simp [target])
  have e : target content pos 0 1 = (pos : Int) := by simp [target]
  rw [e] at h1 h2
  refine ⟨{ s with fd := f' }, ?_, by simpa using h2, h.back⟩
  unfold ftell
  rw [h1]

/-! ### What does not hold -/

/-- A file that nothing was read from. -/
def newFile (content : List Byte) (max : Nat) : Fd :=
  { content := content, pos := 0, calls := 0, size := 0, string := List.replicate 128 0, max := max }

theorem newFile_sees (content : List Byte) (max : Nat) (h : max ≤ 128) : Sees (newFile content max) content 0 :=
  ⟨rfl, rfl, ⟨by simp [newFile], h, by simp [newFile]⟩, .inl rfl⟩

theorem newFile_has (content : List Byte) (max : Nat) (h : max ≤ 128) : Ahead ⟨newFile content max, -1⟩ content content :=
  ⟨0, none, ⟨newFile_sees content max h, rfl⟩, by simp [input]⟩

/-- `fread` reads only once: when the system delivers less than was asked for, items are missing although there are more in the file. -/
theorem C64_fread_false : ¬ FreadSpec := by
  intro h
  obtain ⟨s', m', h1⟩ := h (fun _ => some 1) ⟨newFile [7, 8] 0, -1⟩ [7, 8] [7, 8] [0, 0] 0 1 2 (fun _ => by simp) (newFile_has _ 0 (by decide))
    (by decide) (by decide)
  have e : (match fread (fun _ => some 1) [0, 0] 0 1 2 ⟨newFile [7, 8] 0, -1⟩ with
    | ok (n, _) => decide (n = 1)
    | _ => false) = true := by decide +kernel
  rw [h1] at e
  simp at e

/-- The stream of a file of two bytes, after the first was pushed back. -/
def pushedBack : Stream := ⟨{ newFile [7, 8] 128 with pos := 1 }, 7⟩

theorem pushedBack_at : StreamAt pushedBack [7, 8] 1 (some 7) :=
  ⟨⟨rfl, rfl, ⟨by simp [pushedBack, newFile], by decide, by decide⟩, .inl rfl⟩, rfl⟩

/-- `ftell` does not count a character that was pushed back. -/
theorem C64_tell_false : ¬ FtellSpec := by
  intro h
  have := h pushedBack [7, 8] 1 (some 7) pushedBack_at (by decide) (by decide)
  exact absurd this (by decide)

/-- `fseek` keeps a character that was pushed back: it is the next one, wherever the file is. -/
theorem C64_seek_false : ¬ FseekSpec := by
  intro h
  obtain ⟨s', h1, pos, pushed, h2, h3⟩ := h pushedBack [7, 8] [7, 8] 2 ⟨1, some 7, pushedBack_at, rfl⟩ (by decide)
  have hb : s'.back = 7 := by
    have : (fseek pushedBack 2 0).2.back = 7 := by decide
    rw [show fseek pushedBack ((2 : Nat) : Int) 0 = fseek pushedBack 2 0 from rfl] at h1
    rw [h1] at this
    exact this
  cases pushed with
  | none => have := h2.back; rw [hb] at this; cases this
  | some b => simp [input] at h3

/-- `feof` pushes back a character itself: then the program cannot push back the one that it has read. -/
theorem C64_ungetc_false : ¬ UngetcSpec := by
  intro h
  obtain ⟨s1, s2, s3, h1, h2, h3, -⟩ := h (fun _ => some 1) ⟨newFile [7, 8] 128, -1⟩ [7, 8] [8] 7 (fun _ => by simp) (newFile_has _ 128 (by decide))
  have e : (match fgetc (fun _ => some 1) ⟨newFile [7, 8] 128, -1⟩ with
    | ok (_, s1) => match feof (fun _ => some 1) s1 with
      | ok (_, s2) => match ungetc ((7 : Byte).toNat : Int) s2 with
        | abort => true
        | _ => false
      | _ => false
    | _ => false) = true := by decide +kernel
  rw [h1] at e
  simp only at e
  rw [h2] at e
  simp only at e
  rw [h3] at e
  simp at e

theorem C64_false : ¬ C64_full := fun h => C64_fread_false h.1

/-- The file `ab\ncd`, in lines, with a buffer of three bytes: `ab`, the newline, `cd`. -/
example : ∃ ls s' m', getLines (fun _ => some 1) 0 3 9 [0, 0, 0, 0] ⟨newFile [97, 98, 10, 99, 100] 128, -1⟩ = ok (ls, s', m') ∧
    Lines 2 [97, 98, 10, 99, 100] ls := by
  obtain ⟨ls, s', m', h1, h2, -⟩ := C64_lines (fun _ => some 1) ⟨newFile [97, 98, 10, 99, 100] 128, -1⟩ [97, 98, 10, 99, 100] [97, 98, 10, 99, 100]
    [0, 0, 0, 0] 0 3 9 (fun _ => by simp) (newFile_has _ 128 (by decide)) (by decide) (by decide) (by decide) (by decide)
  exact ⟨ls, s', m', h1, h2⟩

example : Lines 2 [97, 98, 10, 99, 100] [[97, 98], [10], [99, 100]] :=
  .cons (by decide) (.cons (by decide) (.cons (by decide) .nil))

end Mes.Props
