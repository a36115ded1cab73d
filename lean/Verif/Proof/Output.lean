import Verif.Spec.Output
import Verif.Proof.Stream
/- Lemmas about the output functions. -/
namespace Mes.C
open Res Spec

theorem patch_get {content : List UInt8} {pos : Nat} (t : List UInt8) (h : pos ≤ content.length) (i : Nat) :
    (patch content pos t)[i]? = if pos ≤ i ∧ i < pos + t.length then t[i - pos]? else content[i]? := by
  unfold patch
  have hl : (content.take pos).length = pos := by rw [List.length_take]; omega
  rw [List.append_assoc]
  by_cases h1 : i < pos
  · rw [List.getElem?_append_left (by omega), if_neg (by omega), List.getElem?_take, if_pos h1]
  · rw [List.getElem?_append_right (by omega), hl]
    by_cases h2 : i < pos + t.length
    · rw [if_pos (by omega), List.getElem?_append_left (by omega)]
    · rw [if_neg (by omega), List.getElem?_append_right (by omega), List.getElem?_drop]
      congr 1
      omega

theorem patch_patch {content : List UInt8} {pos : Nat} (a b : List UInt8) (h : pos ≤ content.length) :
    patch (patch content pos a) (pos + a.length) b = patch content pos (a ++ b) := by
  have hl : pos + a.length ≤ (patch content pos a).length := by
    unfold patch
    simp only [List.length_append, List.length_take]
    omega
  apply List.ext_getElem?
  intro i
  rw [patch_get _ hl, patch_get _ h, patch_get _ h, List.length_append]
  by_cases h1 : pos + a.length ≤ i ∧ i < pos + a.length + b.length
  · rw [if_pos h1, if_pos (by omega), List.getElem?_append_right (by omega)]
    congr 1
    omega
  · rw [if_neg h1]
    by_cases h2 : pos ≤ i ∧ i < pos + a.length
    · rw [if_pos h2, if_pos (by omega), List.getElem?_append_left (by omega)]
    · rw [if_neg h2, if_neg (by omega)]

theorem length_patch_le {content : List UInt8} {pos : Nat} (a : List UInt8) (h : pos ≤ content.length) :
    pos + a.length ≤ (patch content pos a).length := by
  unfold patch
  simp only [List.length_append, List.length_take]
  omega

theorem write_amount (g : Chunks) (f : Fd) (bs : List Byte) :
    ∃ t, (write g f bs).1 = (match g t with | none => -1 | some c => (transfer c bs.length bs.length : Int)) := by
  unfold write sysWrite
  dsimp only
  generalize (if f.size ≠ 0 then (lseek { f with size := 0 } (-(f.size : Int)) 1).2 else { f with size := 0 }) = f1
  refine ⟨f1.calls, ?_⟩
  cases g f1.calls <;> rfl

/-- What `sysWrite` leaves in the file. -/
theorem eq_patch_take {content c' bs : List Byte} {pos n : Nat} (hp : pos ≤ content.length) (e2 : n ≤ bs.length)
    (e5 : ∀ i, c'[i]? = if pos ≤ i ∧ i < pos + n then bs[i - pos]? else if i < content.length then content[i]? else if i < pos ∧ n ≠ 0 then some 0 else none) :
    c' = patch content pos (bs.take n) := by
  apply List.ext_getElem?
  intro i
  rw [e5, patch_get _ hp, List.length_take, Nat.min_eq_left e2]
  by_cases h1 : pos ≤ i ∧ i < pos + n
  · rw [if_pos h1, if_pos h1, List.getElem?_take, if_pos (by omega)]
  · rw [if_neg h1, if_neg h1]
    by_cases h2 : i < content.length
    · rw [if_pos h2]
    · rw [if_neg h2, if_neg (by omega)]
      exact (List.getElem?_eq_none (l := content) (by omega)).symm

/-- A write starts where the program sees the position. -/
theorem write_start {g : Chunks} {f : Fd} {content : List Byte} {pos : Nat} (h : Sees f content pos) (bs : List Byte) :
    ∃ f1, Sees f1 content pos ∧ f1.size = 0 ∧ write g f bs = sysWrite g f1 bs := by
  unfold write
  have hp := h.place
  have hr := h.room
  by_cases hz : f.size = 0
  · simp only [hz, ne_eq, not_true_eq_false, if_false]
    exact ⟨{ f with size := 0 }, ⟨h.file, show f.pos = pos + 0 by omega, ⟨hr.1, hr.2.1, Nat.zero_le _⟩, .inl rfl⟩, rfl, rfl⟩
  · have hs : Sees { f with size := 0 } content (pos + f.size) := ⟨h.file, by simp only; omega, ⟨hr.1, hr.2.1, by simp⟩, .inl rfl⟩
    obtain ⟨f', e1, e2, e3⟩ := lseek_ok (offset := -(f.size : Int)) (whence := 1) hs (by omega) (by simp; omega)
    simp only [ne_eq, hz, not_false_eq_true, if_true, e1]
    simp at e2
    rw [show ((pos : Int) + f.size + -f.size).toNat = pos by omega] at e2
    exact ⟨f', e2, e3, rfl⟩

/-- A write, at a position in the file or at its end.  An error leaves the file as it is. -/
theorem write_any {g : Chunks} {f : Fd} {content : List Byte} {pos : Nat} (h : Sees f content pos) (hp : pos ≤ content.length)
    (bs : List Byte) : (∃ f', write g f bs = (-1, f') ∧ Sees f' content pos ∧ ∃ t, g t = none) ∨ ∃ (n : Nat) (f' : Fd), write g f bs = ((n : Int), f') ∧
      n ≤ bs.length ∧ (n = 0 → bs = []) ∧ Sees f' (patch content pos (bs.take n)) (pos + n) := by
  obtain ⟨f1, h1, h0, e⟩ := write_start (g := g) h bs
  cases hc : g f1.calls with
  | none =>
    refine .inl ⟨{ f1 with calls := f1.calls + 1 }, ?_, ⟨h1.file, h1.place, h1.room, h1.cached⟩, _, hc⟩
    rw [e, sysWrite, hc]
  | some c =>
    obtain ⟨n, f', c', e1, e2, e3, e4, e5⟩ := sysWrite_ok (g := fun _ => some c) (by intro t; simp) h1 h0 bs
    refine .inr ⟨n, f', ?_, e2, e3, ?_⟩
    · rw [e, ← e1]
      unfold sysWrite
      rw [hc]
    · rwa [eq_patch_take hp e2 e5] at e4

theorem write_patch {g : Chunks} {f : Fd} {content : List Byte} {pos : Nat} (hg : NoErrors g) (h : Sees f content pos) (hp : pos ≤ content.length)
    (bs : List Byte) : ∃ (n : Nat) (f' : Fd), write g f bs = ((n : Int), f') ∧ n ≤ bs.length ∧ (n = 0 → bs = []) ∧
      Sees f' (patch content pos (bs.take n)) (pos + n) := by
  rcases write_any (g := g) h hp bs with ⟨-, -, -, t, ht⟩ | h
  · exact absurd ht (hg t)
  · exact h

theorem Accepts.noErrors {g : Chunks} {n : Nat} (h : Accepts g n) : NoErrors g := fun t e => by
  obtain ⟨c, h1, -⟩ := h t
  rw [h1] at e
  cases e

theorem write_all {g : Chunks} {f : Fd} {content : List Byte} {pos n : Nat} (hg : Accepts g n) (h : Sees f content pos) (hp : pos ≤ content.length)
    (bs : List Byte) (hn : bs.length ≤ n) :
    ∃ f', write g f bs = ((bs.length : Int), f') ∧ Sees f' (patch content pos bs) (pos + bs.length) := by
  obtain ⟨k, f', e1, -, -, e2⟩ := write_patch (Accepts.noErrors hg) h hp bs
  obtain ⟨t, ht⟩ := write_amount g f bs
  obtain ⟨c, hc, hle⟩ := hg t
  rw [hc, e1] at ht
  have hk : k = bs.length := by
    simp only [transfer] at ht
    omega
  subst hk
  rw [List.take_length] at e2
  exact ⟨f', e1, e2⟩

theorem getBytes_ok {m : Mem} {a : Nat} {t : List Byte} (h : At m a t) (hl : a + t.length ≤ m.length) : getBytes m a t.length = ok t := by
  unfold getBytes
  rw [if_pos hl]
  congr 1
  exact h.slice_eq

theorem fdputs_text {g : Chunks} {f : Fd} {m : Mem} {s : Nat} {t : List Byte} (h : CStr m s t) (ht : t.length ≤ INT_MAX) :
    fdputs g f m s = ok (0, (write g f t).2) := by
  unfold fdputs
  rw [strlen_ok h ht]
  simp only [ok_bind, getBytes_ok h.at_self (by have := h.lt; omega)]

theorem call_ok {w : Nat} {g : Chunks} {f : Fd} {m : Mem} {content t : List Byte} {pos n : Nat} {c : OutCall} (hw : w = 32 ∨ w = 64) (hg : Accepts g n) (h : Sees f content pos)
    (hp : pos ≤ content.length) (hc : Says m c t) (hn : t.length ≤ n) (ht : t.length ≤ INT_MAX) :
    ∃ f', c.run w g f m = ok (OutCall.value c, f') ∧ Sees f' (patch content pos t) (pos + t.length) := by
  cases hc with
  | char c =>
    obtain ⟨f', e1, e2⟩ := write_all hg h hp _ hn
    refine ⟨f', ?_, e2⟩
    show ok (0, (write g f [toByte c]).2) = _
    rw [show toByte c = UInt8.ofNat (c % 256).toNat from rfl, e1]
    rfl
  | text hs =>
    obtain ⟨f', e1, e2⟩ := write_all hg h hp _ hn
    exact ⟨f', by rw [OutCall.run, fdputs_text hs ht, e1]; rfl, e2⟩
  | @line s t hs =>
    rw [List.length_append, List.length_singleton] at ht hn
    obtain ⟨f1, e1, e2⟩ := write_all hg h hp t (by omega)
    obtain ⟨f2, e3, e4⟩ := write_all hg e2 (length_patch_le t hp) [10] (by simp only [List.length_singleton]; omega)
    rw [patch_patch _ _ hp, Nat.add_assoc, ← List.length_append] at e4
    refine ⟨f2, ?_, e4⟩
    rw [OutCall.run, puts, fdputs_text hs (by omega)]
    simp only [ok_bind, e1, e3]
    rfl
  | @block data size count t hat hl hr =>
    rw [OutCall.run, fwrite]
    by_cases h0 : size = 0 ∨ count = 0
    · have : t = [] := List.eq_nil_of_length_eq_zero (by rw [hl]; rcases h0 with h | h <;> simp [h])
      subst this
      rw [if_pos h0]
      refine ⟨f, ?_, by rw [patch_nil]; exact h⟩
      unfold OutCall.value
      by_cases hz : size = 0
      · simp [hz]
      · have : count = 0 := by omega
        simp [this]
    · obtain ⟨f1, e1, e2⟩ := write_all hg h hp t hn
      rw [if_neg h0, ← hl]
      have hlt : t.length % 2 ^ w = t.length := by
        apply Nat.mod_eq_of_lt
        unfold INT_MAX at ht
        rcases hw with rfl | rfl <;> omega
      rw [hlt, getBytes_ok hat hr]
      have hi : intOf (t.length : Int) = t.length := by
        unfold intOf
        unfold INT_MAX at ht
        omega
      clear hlt
      have hpos : 0 < size * count := Nat.mul_pos (by omega) (by omega)
      have hpos' : (t.length : Int) > 0 := by rw [hl]; exact Int.natCast_pos.2 hpos
      simp only [ok_bind, e1, hi]
      rw [if_pos hpos']
      refine ⟨f1, ?_, e2⟩
      show ok ((t.length : Int) / size, f1) = ok (if size = 0 then 0 else (count : Int), f1)
      rw [if_neg (by omega), hl, ← Int.natCast_ediv, Nat.mul_div_cancel_left _ (by omega)]

theorem runOut_ok {w : Nat} {g : Chunks} {m : Mem} {n : Nat} (hw : w = 32 ∨ w = 64) (hg : Accepts g n) (hn : n ≤ INT_MAX) {cs : List OutCall} {t : List Byte} (hc : SaysAll m n cs t) :
    ∀ {f : Fd} {content : List Byte} {pos : Nat}, Sees f content pos → pos ≤ content.length →
    ∃ f', runOut w g f m cs = ok (cs.map OutCall.value, f') ∧ Sees f' (patch content pos t) (pos + t.length) := by
  induction hc with
  | nil => intro f content pos h _; exact ⟨f, rfl, by rw [patch_nil]; exact h⟩
  | @cons c cs t ts h1 h2 _ ih =>
    intro f content pos h hp
    obtain ⟨f1, e1, s1⟩ := call_ok hw hg h hp h1 h2 (by omega)
    obtain ⟨f2, e2, s2⟩ := ih s1 (length_patch_le t hp)
    rw [patch_patch _ _ hp, Nat.add_assoc, ← List.length_append] at s2
    refine ⟨f2, ?_, s2⟩
    rw [runOut, e1]
    simp only [ok_bind, e2, List.map_cons]

end Mes.C
