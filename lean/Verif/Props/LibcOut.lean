import Verif.Proof.Output
import Verif.Props.LibcRead
/- Property C72: output functions of the C library, /repo/lib/stdio/fputc.c, fputs.c, fwrite.c, /repo/lib/stdlib/puts.c, /repo/lib/mes/fdputc.c, fdputs.c, oputs.c. -/
namespace Mes.C
open Res Spec

/-- A call writes its bytes at the position and gives the value of ISO C, or it gives another value. -/
def OutputCorrect (calls : OutCall → Prop) (system : Chunks → Prop) : Prop :=
  ∀ (w : Nat) (g : Chunks) (f : Fd) (m : Mem) (content t : List Byte) (pos : Nat) (c : OutCall), w = 32 ∨ w = 64 → system g → calls c → Sees f content pos →
    pos ≤ content.length → Says m c t → t.length ≤ INT_MAX → ∃ r f', c.run w g f m = ok (r, f') ∧ (Succeeds c r ↔ Sees f' (patch content pos t) (pos + t.length))

/-- The full property: for every call and every behaviour of the system. -/
def C72_full : Prop := OutputCorrect (fun _ => True) (fun _ => True)

end Mes.C

namespace Mes.Props
open Mes.C Res Spec

/-- A file with these bytes, just opened. -/
def outFd (content : List Byte) : Fd := { content := content, pos := 0, calls := 0, size := 0, string := List.replicate 128 0, max := 100 }

theorem outFd_sees (content : List Byte) : Sees (outFd content) content 0 := opened_sees (by simp) (by decide)

/-- `fputs` does not notice an error. -/
theorem C72_error_false : ¬ OutputCorrect (fun c => ∃ s, c = .text s) (fun _ => True) := by
  intro h
  obtain ⟨r, f', e, h1⟩ := h 32 (fun _ => none) (outFd []) [97, 0] [] [97] 0 (.text 0) (.inl rfl) trivial ⟨0, rfl⟩ (outFd_sees _) (by decide)
    (.text (by decide)) (by decide)
  have h2 : (OutCall.text 0).run 32 (fun _ => none) (outFd []) [97, 0] = ok (0, { outFd [] with calls := 1 }) := rfl
  rw [h2] at e
  cases e
  have := (h1.1 (by show (0 : Int) ≤ 0; decide)).file
  revert this
  decide

/-- Nor that only a part was written. -/
theorem C72_short_false : ¬ OutputCorrect (fun c => ∃ s, c = .text s) NoErrors := by
  intro h
  obtain ⟨r, f', e, h1⟩ := h 32 (fun _ => some 1) (outFd []) [97, 98, 0] [] [97, 98] 0 (.text 0) (.inl rfl) (by intro t; simp) ⟨0, rfl⟩ (outFd_sees _) (by decide)
    (.text (by decide)) (by decide)
  have h2 : (OutCall.text 0).run 32 (fun _ => some 1) (outFd []) [97, 98, 0] = ok (0, { outFd [97] with calls := 1, pos := 1 }) := rfl
  rw [h2] at e
  cases e
  have := (h1.1 (by show (0 : Int) ≤ 0; decide)).file
  revert this
  decide

/-- `fputc` does not give the character. -/
theorem C72_char_false (n : Nat) : ¬ OutputCorrect (fun c => ∃ x, c = .char x) (fun g => Accepts g n) := by
  intro h
  obtain ⟨r, f', e, h1⟩ := h 32 (fun _ => some (n + 1)) (outFd []) [] [] [97] 0 (.char 97) (.inl rfl) (fun t => ⟨_, rfl, by omega⟩) ⟨97, rfl⟩ (outFd_sees _) (by decide)
    (.char 97) (by decide)
  obtain ⟨f1, g1, g2⟩ := call_ok (w := 32) (n := 1) (g := fun _ => some (n + 1)) (f := outFd []) (m := []) (.inl rfl) (fun t => ⟨_, rfl, by omega⟩) (outFd_sees []) (by decide)
    (.char 97) (by decide) (by decide)
  rw [g1] at e
  cases e
  have : OutCall.value (.char 97) = 97 % 256 := h1.2 g2
  revert this
  decide

theorem C72_false : ¬ C72_full := fun h => C72_error_false fun w g f m c t p x hw _ _ => h w g f m c t p x hw trivial trivial

/-- `fwrite` in detail: it gives the number of elements that were written completely, 0 if there was an error; the bytes that were written, perhaps a
part of an element at the end, are in the file. -/
theorem C72_fwrite (w : Nat) (g : Chunks) (f : Fd) (m : Mem) (content t : List Byte) (pos data size count : Nat) (hw : w = 32 ∨ w = 64)
    (h : Sees f content pos) (hp : pos ≤ content.length) (hat : At m data t) (hl : t.length = size * count)
    (hr : data + t.length ≤ m.length) (ht : t.length ≤ INT_MAX) :
    ∃ (n : Nat) (f' : Fd), fwrite w g f m data size count = ok (((n / size : Nat) : Int), f') ∧ n ≤ t.length ∧
      Sees f' (patch content pos (t.take n)) (pos + n) := by
  unfold fwrite
  by_cases h0 : size = 0 ∨ count = 0
  · have : t = [] := List.eq_nil_of_length_eq_zero (by rw [hl]; rcases h0 with h | h <;> simp [h])
    subst this
    refine ⟨0, f, ?_, by simp, by rw [List.take_nil, patch_nil]; exact h⟩
    rw [if_pos h0, Nat.zero_div]
    rfl
  · have hlt : t.length % 2 ^ w = t.length := by
      apply Nat.mod_eq_of_lt
      unfold INT_MAX at ht
      rcases hw with rfl | rfl <;> omega
    rw [if_neg h0, ← hl, hlt, getBytes_ok hat hr]
    clear hlt
    rcases write_any (g := g) h hp t with ⟨f1, e1, e2, -⟩ | ⟨n, f1, e1, e2, e3, e4⟩
    · refine ⟨0, f1, ?_, Nat.zero_le _, by rw [List.take_zero, patch_nil]; exact e2⟩
      simp only [ok_bind, e1]
      rw [if_neg (by decide), Nat.zero_div]
      rfl
    · refine ⟨n, f1, ?_, e2, e4⟩
      have hi : intOf (n : Int) = n := by
        unfold intOf
        unfold INT_MAX at ht
        omega
      simp only [ok_bind, e1, hi]
      by_cases hn : n = 0
      · subst hn
        rw [if_neg (by decide), Nat.zero_div]
        rfl
      · have hpos : (n : Int) > 0 := Int.natCast_pos.2 (Nat.pos_of_ne_zero hn)
        rw [if_pos hpos, ← Int.natCast_ediv]

/-- Partial: for `fwrite` the property holds, whatever the system does.  Missing for the full property: the other functions, for which it is false. -/
theorem C72_blocks_partial : OutputCorrect (fun c => ∃ d n k, c = .block d n k) (fun _ => True) := by
  rintro w g f m content t pos _ hw - ⟨data, size, count, rfl⟩ h hp hs ht
  cases hs with
  | block hat hl hr =>
    obtain ⟨n, f', e1, e2, e3⟩ := C72_fwrite w g f m content t pos data size count hw h hp hat hl hr ht
    refine ⟨_, f', e1, ?_⟩
    have hn : Succeeds (.block data size count) ((n / size : Nat) : Int) ↔ n = t.length := by
      show ((n / size : Nat) : Int) = (if size = 0 then 0 else (count : Int)) ↔ _
      by_cases hz : size = 0
      · subst hz
        rw [Nat.zero_mul] at hl
        rw [Nat.div_zero, if_pos rfl]
        exact ⟨fun _ => by omega, fun _ => rfl⟩
      · rw [if_neg hz, Int.ofNat_inj]
        constructor
        · intro e
          have h1 := Nat.div_mul_le_self n size
          rw [e, Nat.mul_comm, ← hl] at h1
          omega
        · intro e
          rw [e, hl, Nat.mul_div_cancel_left _ (by omega)]
    rw [hn]
    constructor
    · rintro rfl
      rwa [List.take_length] at e3
    · intro h4
      have h5 := e3.place
      rw [h4.place] at h5
      omega

/-- Partial: if the system takes every write as a whole, what a program writes with these functions, in any order, is in the file, one after the
other from its position on, and what was read ahead does not matter; `fwrite` gives the number of elements, the others 0.  Missing for the full property:
a system that fails or takes less, and the value of `fputc`. -/
theorem C72_program_partial (w : Nat) (g : Chunks) (f : Fd) (m : Mem) (n : Nat) (content t : List Byte) (pos : Nat) (cs : List OutCall) (hw : w = 32 ∨ w = 64)
    (hg : Accepts g n) (hn : n ≤ INT_MAX) (h : Sees f content pos) (hp : pos ≤ content.length) (hc : SaysAll m n cs t) :
    ∃ f', runOut w g f m cs = ok (cs.map OutCall.value, f') ∧ Sees f' (patch content pos t) (pos + t.length) := runOut_ok hw hg hn hc h hp

/-- `fputs ("ab", f); fputc ('c', f); fwrite ("ab", 1, 2, f); puts ("b")` -/
example : ∃ f', runOut 32 (fun _ => some 9) (outFd [1, 2, 3, 4, 5, 6, 7, 8, 9]) [97, 98, 0] [.text 0, .char 99, .block 0 1 2, .line 1] = ok ([0, 0, 2, 0], f') ∧
    Sees f' [97, 98, 99, 97, 98, 98, 10, 8, 9] 7 :=
  C72_program_partial 32 (fun _ => some 9) _ [97, 98, 0] 9 _ [97, 98, 99, 97, 98, 98, 10] 0 [.text 0, .char 99, .block 0 1 2, .line 1] (.inl rfl)
    (fun _ => ⟨9, rfl, by omega⟩) (by decide) (outFd_sees _) (by decide)
    (.cons (t := [97, 98]) (.text (by decide)) (by decide) (.cons (t := [99]) (.char 99) (by decide) (.cons (t := [97, 98]) (.block (by decide) (by decide) (by decide)) (by decide)
      (.cons (t := [98, 10]) (.line (t := [98]) (by decide)) (by decide) .nil))))

end Mes.Props
