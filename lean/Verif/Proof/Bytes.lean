import Verif.Model.CMem
import Verif.Spec.Bytes
/- Helper lemmas about memories, slices and patches. -/
namespace Mes
open Res Spec

theorem rd_ok {m : Mem} {a : Nat} {b : Byte} (h : m[a]? = some b) : m.rd a = ok b := by
  simp [Mem.rd, h]

theorem rd_ub {m : Mem} {a : Nat} (h : m.length ≤ a) : m.rd a = ub := by
  simp [Mem.rd, List.getElem?_eq_none h]

theorem wr_ok {m : Mem} {a : Nat} (b : Byte) (h : a < m.length) : m.wr a b = ok (m.set a b) := by
  simp [Mem.wr, h]

theorem wr_ub {m : Mem} {a : Nat} (b : Byte) (h : m.length ≤ a) : m.wr a b = ub := by
  simp [Mem.wr, Nat.not_lt.mpr h]

theorem getElem?_set' (m : Mem) (a i : Nat) (b : Byte) (h : a < m.length) :
    (m.set a b)[i]? = if i = a then some b else m[i]? := by
  rw [List.getElem?_set]
  by_cases hi : a = i
  · subst hi; simp [h]
  · simp [hi, Ne.symm hi]

theorem exists_of_lt {m : Mem} {a : Nat} (h : a < m.length) : ∃ b, m[a]? = some b :=
  ⟨m[a], List.getElem?_eq_getElem h⟩

theorem getElem?_patch (m l : List UInt8) (a i : Nat) (h : a + l.length ≤ m.length) :
    (patch m a l)[i]? = if a ≤ i ∧ i < a + l.length then l[i - a]? else m[i]? := by
  unfold patch
  rw [List.append_assoc, List.getElem?_append, List.length_take, Nat.min_eq_left (by omega)]
  by_cases h1 : i < a
  · rw [if_pos h1, List.getElem?_take, if_pos h1, if_neg (by omega)]
  · rw [if_neg h1, List.getElem?_append]
    by_cases h2 : i - a < l.length
    · rw [if_pos h2, if_pos (by omega)]
    · rw [if_neg h2, List.getElem?_drop, if_neg (by omega)]
      congr 1; omega

theorem length_patch (m l : List UInt8) (a : Nat) (h : a + l.length ≤ m.length) :
    (patch m a l).length = m.length := by
  simp [patch]; omega

theorem length_slice (m : List UInt8) (a n : Nat) (h : a + n ≤ m.length) : (slice m a n).length = n := by
  simp [slice]; omega

theorem getElem?_slice (m : List UInt8) (a n i : Nat) :
    (slice m a n)[i]? = if i < n then m[a + i]? else none := by
  simp [slice, List.getElem?_take]

theorem patch_nil (m : List UInt8) (a : Nat) : patch m a [] = m := by
  simp [patch]

theorem _root_.Mes.Spec.At.lt {m : List UInt8} {a : Nat} {l : List UInt8} (h : At m a l) {i : Nat} (hi : i < l.length) :
    a + i < m.length := by
  have := h i hi
  rw [List.getElem?_eq_getElem hi] at this
  exact (List.getElem?_eq_some_iff.mp this).1

theorem _root_.Mes.Spec.At.slice_eq {m : List UInt8} {a : Nat} {l : List UInt8} (h : At m a l) : slice m a l.length = l := by
  apply List.ext_getElem?
  intro i
  rw [getElem?_slice]
  by_cases hi : i < l.length
  · rw [if_pos hi, h i hi]
  · rw [if_neg hi, List.getElem?_eq_none (by omega)]

theorem _root_.Mes.Spec.At.le {m : List UInt8} {a : Nat} {l : List UInt8} (h : At m a l) (hl : l ≠ []) :
    a + l.length ≤ m.length := by
  have : l.length ≠ 0 := by simpa using hl
  have := h.lt (i := l.length - 1) (by omega)
  omega

theorem _root_.Mes.Spec.CStr.rd_lt {m : List UInt8} {a : Nat} {s : List UInt8} (h : CStr m a s) {i : Nat} (hi : i < s.length) :
    m[a + i]? = some s[i] := by
  rw [h.1 i (by simp; omega), List.getElem?_append_left hi, List.getElem?_eq_getElem hi]

theorem _root_.Mes.Spec.CStr.rd_end {m : List UInt8} {a : Nat} {s : List UInt8} (h : CStr m a s) :
    m[a + s.length]? = some 0 := by
  rw [h.1 s.length (by simp)]; simp

theorem _root_.Mes.Spec.CStr.ne {m : List UInt8} {a : Nat} {s : List UInt8} (h : CStr m a s) {i : Nat} (hi : i < s.length) :
    s[i] ≠ 0 := h.2 _ (List.getElem_mem hi)

theorem _root_.Mes.Spec.CStr.lt {m : List UInt8} {a : Nat} {s : List UInt8} (h : CStr m a s) : a + s.length < m.length :=
  (List.getElem?_eq_some_iff.mp h.rd_end).1

theorem _root_.Mes.Spec.CStr.tail {m : List UInt8} {a : Nat} {b : UInt8} {s : List UInt8} (h : CStr m a (b :: s)) :
    CStr m (a + 1) s := by
  refine ⟨fun i hi => ?_, fun c hc => h.2 c (List.mem_cons_of_mem _ hc)⟩
  have := h.1 (i + 1) (by simpa using hi)
  rw [show a + 1 + i = a + (i + 1) by omega, this]
  simp

theorem _root_.Mes.Spec.CStr.head {m : List UInt8} {a : Nat} {b : UInt8} {s : List UInt8} (h : CStr m a (b :: s)) :
    m[a]? = some b ∧ b ≠ 0 :=
  ⟨h.rd_lt (i := 0) (by simp), h.2 b (by simp)⟩

theorem _root_.Mes.Spec.CStr.nil {m : List UInt8} {a : Nat} (h : CStr m a []) : m[a]? = some 0 := by
  simpa using h.rd_end

theorem _root_.Mes.Spec.CStr.at_self {m : List UInt8} {a : Nat} {s : List UInt8} (h : CStr m a s) : At m a s := by
  intro i hi
  rw [h.1 i (by simp; omega), List.getElem?_append_left hi]

theorem sc_inj {a b : Byte} (h : sc a = sc b) : a = b := by
  have ha := a.toNat_lt; have hb := b.toNat_lt
  unfold sc at h
  apply UInt8.toNat_inj.mp
  split at h <;> split at h <;> omega

theorem sc_eq_iff {a b : Byte} : sc a = sc b ↔ a = b := ⟨sc_inj, fun h => by rw [h]⟩

@[simp] theorem sc_zero : sc 0 = 0 := rfl

theorem sc_ne_zero {a : Byte} : sc a = 0 ↔ a = 0 := by
  rw [← sc_zero, sc_eq_iff]

end Mes
