import Verif.Spec.Stream
import Verif.Proof.CString
/-
Lemmas about buffered reading.
-/
namespace Mes.C
open Res Spec

variable {g : Chunks} {f : Fd} {m : Mem} {content : List Byte} {pos : Nat}

theorem putBytes_ok : ∀ (l : List Byte) (m : Mem) (p : Nat), p + l.length ≤ m.length → ∃ m', putBytes m p l = ok m' ∧ Patched m m' p l
  | [], m, p, _ => ⟨m, rfl, .nil _ _⟩
  | b :: l, m, p, h => by
    simp only [List.length_cons] at h
    obtain ⟨m', e1, e2⟩ := putBytes_ok l (m.set p b) (p + 1) (by simp; omega)
    exact ⟨m', by simp only [putBytes, wr_ok b (show p < m.length by omega), ok_bind, e1], .cons (by omega) e2⟩

theorem slice_zero (l : List Byte) (a : Nat) : slice l a 0 = [] := by simp [slice]

theorem slice_add (l : List Byte) (a n k : Nat) : slice l a (n + k) = slice l a n ++ slice l (a + n) k := by
  unfold slice
  rw [List.take_add, List.drop_drop]

theorem slice_len_le (l : List Byte) (a n : Nat) : (slice l a n).length = min n (l.length - a) := by simp [slice]

theorem copyOut_ok : ∀ (todo : Nat) (f : Fd) (m : Mem) (p pos : Nat), Sees f content pos → p + todo ≤ m.length →
    ∃ f' m', copyOut f m p todo = ok (m', p + min todo f.size, todo - min todo f.size, f') ∧ Patched m m' p (slice content pos (min todo f.size)) ∧
      Sees f' content (pos + min todo f.size) ∧ f'.size = f.size - min todo f.size ∧ f'.max = f.max ∧ f'.pos = f.pos ∧ f'.calls = f.calls
  | 0, f, m, p, pos, h, _ => by
    refine ⟨f, m, by simp [copyOut], ?_, by simpa using h, by simp, rfl, rfl, rfl⟩
    rw [Nat.zero_min, slice_zero]; exact .nil _ _
  | todo + 1, f, m, p, pos, h, hp => by
    by_cases hs : f.size > 0
    · obtain ⟨hlen, hat⟩ := h.cached.resolve_left (by omega)
      have hroom := h.room
      have hl := length_slice content pos f.size hlen
      have hr := hat 0 (by omega)
      rw [getElem?_slice, if_pos hs, Nat.add_zero, Nat.add_zero] at hr
      obtain ⟨b, hb⟩ := exists_of_lt (m := content) (a := pos) (by omega)
      rw [hb] at hr
      have hsees : Sees { f with size := f.size - 1 } content (pos + 1) := by
        refine ⟨h.file, by have := h.place; simp only; omega, ⟨hroom.1, hroom.2.1, by simp only; omega⟩, ?_⟩
        by_cases h1 : f.size = 1
        · exact .inl (by simp only; omega)
        · refine .inr ⟨by simp only; omega, fun i hi => ?_⟩
          have hl1 := length_slice content (pos + 1) (f.size - 1) (by omega)
          rw [hl1] at hi
          have := hat (i + 1) (by omega)
          rw [getElem?_slice, if_pos (by omega)] at this
          rw [getElem?_slice, if_pos hi]
          simp only
          rw [show f.max - (f.size - 1) + i = f.max - f.size + (i + 1) by omega, this]
          congr 1
          omega
      obtain ⟨f', m', e1, e2, e3, e4, e5, e6, e7⟩ := copyOut_ok todo { f with size := f.size - 1 } (m.set p b) (p + 1) (pos + 1) hsees (by simp; omega)
      simp only at e1 e2 e3 e4 e5 e6 e7
      have hmin : min (todo + 1) f.size = min todo (f.size - 1) + 1 := by omega
      rw [hmin]
      refine ⟨f', m', ?_, ?_, by rwa [Nat.add_right_comm, Nat.add_assoc] at e3, by omega, e5, e6, e7⟩
      · simp only [copyOut, if_pos hs, rd_ok hr, ok_bind, wr_ok b (show p < m.length by omega), e1]
        rw [show p + 1 + min todo (f.size - 1) = p + (min todo (f.size - 1) + 1) by omega,
          show todo - min todo (f.size - 1) = todo + 1 - (min todo (f.size - 1) + 1) by omega]
      · have : slice content pos (min todo (f.size - 1) + 1) = b :: slice content (pos + 1) (min todo (f.size - 1)) := by
          rw [Nat.add_comm, slice_add]
          have h1 : slice content pos 1 = [b] := by
            apply List.ext_getElem?
            intro i
            rw [getElem?_slice]
            cases i with
            | zero => simp [hb]
            | succ i => simp
          rw [h1]; rfl
        rw [this]
        exact .cons (by omega) e2
    · have h0 : f.size = 0 := by omega
      refine ⟨f, m, ?_, ?_, by simpa [h0] using h, by omega, rfl, rfl, rfl⟩
      · simp only [copyOut, h0]; rfl
      · rw [h0, Nat.min_zero, slice_zero]; exact .nil _ _

theorem sysRead_ok (hg : NoErrors g) (h : Sees f content pos) (h0 : f.size = 0) (size : Nat) :
    ∃ k f', sysRead g f size = (some (slice content pos k), f') ∧ f' = { f with calls := f.calls + 1, pos := pos + k } ∧ k ≤ size ∧ (k = 0 ∨ pos + k ≤ content.length) ∧
      (k = 0 → size = 0 ∨ content.length ≤ pos) := by
  have hp : f.pos = pos := by rw [h.place, h0]; rfl
  unfold sysRead
  cases hc : g f.calls with
  | none => exact absurd hc (hg _)
  | some c =>
    refine ⟨transfer c size (content.length - pos), _, ?_, rfl, ?_, ?_, ?_⟩
    · simp only [h.file, hp]; rfl
    · unfold transfer; omega
    · unfold transfer; omega
    · unfold transfer; omega

theorem Sees.calls {t : Nat} (h : Sees f content pos) : Sees { f with calls := t } content pos := ⟨h.file, h.place, h.room, h.cached⟩

theorem sees_empty (h : Sees f content pos) (h0 : f.size = 0) {k t : Nat} : Sees { f with calls := t, pos := pos + k } content (pos + k) :=
  ⟨h.file, by simp only; omega, h.room, .inl h0⟩

theorem bufferedRead_ok (hg : NoErrors g) : ∀ (fuel : Nat) (f : Fd) (m : Mem) (p pos size : Nat), Sees f content pos → p + size ≤ m.length →
    size + (if f.size = 0 then 1 else 0) < fuel →
    ∃ (n : Nat) (f' : Fd) (m' : Mem), bufferedRead g fuel f m p size = ok (((n : Nat) : Int), f', m') ∧ Reads content pos size n ∧ Patched m m' p (slice content pos n) ∧
      Sees f' content (pos + n) ∧ f'.max = f.max ∧ (size ≤ f.max → n = min size (content.length - pos))
  | fuel + 1, f, m, p, pos, size, h, hp, hf => by
    unfold bufferedRead
    have hroom := h.room
    by_cases hd : f.size = 0 ∧ size > f.max
    · obtain ⟨k, f', e1, rfl, e3, e4, e5⟩ := sysRead_ok hg h hd.1 size
      have hl : (slice content pos k).length = k := by rw [slice_len_le]; omega
      obtain ⟨m', g1, g2⟩ := putBytes_ok (slice content pos k) m p (by omega)
      refine ⟨k, _, m', ?_, ⟨e3, e4, e5⟩, g2, sees_empty h hd.1 (t := f.calls + 1), rfl, fun h => by omega⟩
      rw [if_pos hd, e1]
      simp only [g1, ok_bind, hl]
    · rw [if_neg hd]
      obtain ⟨f1, m1, e1, e2, e3, e4, e5, e6, e7⟩ := copyOut_ok size f m p pos h hp
      simp only [e1, ok_bind]
      obtain ⟨n1, hn1⟩ : ∃ n1, n1 = min size f.size := ⟨_, rfl⟩
      rw [← hn1] at e2 e3 e4 ⊢
      have hin : n1 = 0 ∨ pos + n1 ≤ content.length := by
        rcases h.cached with h0 | ⟨h0, -⟩
        · omega
        · omega
      by_cases ht : size - n1 = 0
      · rw [if_neg (by omega)]
        have : n1 = size := by omega
        subst this
        refine ⟨n1, f1, m1, rfl, ⟨Nat.le_refl _, hin, fun h => .inl h⟩, e2, e3, e5, fun _ => by omega⟩
      · rw [if_pos (by omega)]
        have hz : f1.size = 0 := by omega
        have hl1 : (slice content pos n1).length = n1 := by rw [slice_len_le]; omega
        by_cases hbig : size - n1 > f1.max
        · rw [if_pos hbig]
          obtain ⟨k, f', g1, rfl, g3, g4, g5⟩ := sysRead_ok hg e3 hz (size - n1)
          have hl : (slice content (pos + n1) k).length = k := by rw [slice_len_le]; omega
          obtain ⟨m', q1, q2⟩ := putBytes_ok (slice content (pos + n1) k) m1 (p + n1) (by rw [e2.len]; omega)
          refine ⟨n1 + k, { f1 with calls := f1.calls + 1, pos := pos + n1 + k }, m', ?_, ⟨by omega, by omega, by omega⟩, ?_, by rw [← Nat.add_assoc]; exact sees_empty e3 hz (t := f1.calls + 1), e5, fun h => by omega⟩
          · rw [g1]
            simp only [q1, ok_bind, hl]
            congr 2
            omega
          · rw [slice_add]
            exact e2.append (by rw [hl1]; exact q2)
        · rw [if_neg hbig]
          obtain ⟨k, f', g1, rfl, g3, g4, g5⟩ := sysRead_ok hg e3 hz f1.max
          have hl : (slice content (pos + n1) k).length = k := by rw [slice_len_le]; omega
          have hr1 := e3.room
          obtain ⟨st, q1, q2⟩ := putBytes_ok (slice content (pos + n1) k) f1.string 0 (by omega)
          have ql := q2.len
          rw [g1]
          simp only [q1, ok_bind, hl]
          by_cases hk : k = 0
          · subst hk
            rw [if_neg (by omega)]
            have hpl : pos + n1 + 0 = pos + n1 + f1.size := by omega
            have hsl : st.length = 128 := by omega
            refine ⟨n1, { f1 with calls := f1.calls + 1, pos := pos + n1 + 0, string := st }, m1, ?_, ⟨by omega, hin, fun h => by omega⟩, e2, ⟨e3.file, hpl, ⟨hsl, hr1.2⟩, .inl hz⟩, e5, fun h => by omega⟩
            congr 2
            omega
          · rw [if_pos hk]
            obtain ⟨st2, hst, hst2, hat⟩ : ∃ st2, moveToEnd st f1.max k = ok st2 ∧ st2.length = 128 ∧ At st2 (f1.max - k) (slice content (pos + n1) k) := by
              by_cases hkm : k < f1.max
              · obtain ⟨st2, r1, r2, r3⟩ := memmoveBack_ok k st (f1.max - k) 0 (by omega) (by omega) (by omega)
                refine ⟨st2, ?_, by omega, fun i hi => ?_⟩
                · unfold moveToEnd memmove
                  rw [if_pos hkm, if_neg (by omega), r1]
                  rfl
                · rw [hl] at hi
                  rw [r3, if_pos (by omega), ← q2.inside i (by omega)]
                  congr 1
                  omega
              · refine ⟨st, by unfold moveToEnd; rw [if_neg hkm], by omega, fun i hi => ?_⟩
                have hk' : f1.max - k = 0 := by omega
                rw [hk', q2.inside i hi]
            simp only [hst, ok_bind]
            have hs2 : Sees { f1 with calls := f1.calls + 1, pos := pos + n1 + k, size := k, string := st2 } content (pos + n1) :=
              ⟨e3.file, rfl, ⟨hst2, hr1.2.1, g3⟩, .inr ⟨by simp only; omega, hat⟩⟩
            obtain ⟨n2, f2, m2, i1, i2, i3, i4, i5, i6⟩ := bufferedRead_ok hg fuel _ m1 (p + n1) (pos + n1) (size - n1) hs2 (by rw [e2.len]; omega) (by
              rw [if_neg (by simp only; exact hk)]
              by_cases hfs : f.size = 0
              · rw [if_pos hfs] at hf; omega
              · rw [if_neg hfs] at hf; omega)
            refine ⟨n1 + n2, f2, m2, ?_, ⟨by have := i2.le; omega, by have := i2.inside; omega, fun h => by have := i2.progress; omega⟩, ?_, by rw [← Nat.add_assoc]; exact i4, by rw [i5, ← e5], ?_⟩
            · rw [i1]
              simp only [ok_bind]
              congr 2
              omega
            · rw [slice_add]
              exact e2.append (by rw [hl1]; exact i3)
            · intro h
              have := i6 (by simp only; omega)
              omega

theorem read_ok (hg : NoErrors g) {p size : Nat} (h : Sees f content pos) (hp : p + size ≤ m.length) :
    ∃ (n : Nat) (f' : Fd) (m' : Mem), read g f m p size = ok (((n : Nat) : Int), f', m') ∧ Reads content pos size n ∧ Patched m m' p (slice content pos n) ∧
      Sees f' content (pos + n) ∧ f'.max = f.max ∧ (size ≤ f.max → n = min size (content.length - pos)) :=
  bufferedRead_ok hg _ f m p pos size h hp (by split <;> omega)

theorem lseek_ok {offset : Int} {whence : Nat} (h : Sees f content pos) (hw : whence ≤ 2)
    (ht : 0 ≤ (if whence = 0 then 0 else if whence = 1 then (pos : Int) else content.length) + offset) :
    ∃ f', lseek f offset whence = ((if whence = 0 then 0 else if whence = 1 then (pos : Int) else content.length) + offset, f') ∧
      Sees f' content ((if whence = 0 then 0 else if whence = 1 then (pos : Int) else content.length) + offset).toNat ∧ f'.size = 0 := by
  have h1 : (sysLseek f 0 1).1 ≠ -1 := by
    unfold sysLseek
    simp only
    rw [if_pos (by omega)]
    simp only
    omega
  unfold lseek
  rw [if_neg h1]
  have hp := h.place
  have hc := h.file
  have hr := h.room
  simp only
  unfold sysLseek
  have key : (if whence = 0 then (0 : Int) else if whence = 1 then (f.pos : Int) else (f.content.length : Int)) + (if whence = 1 then offset - f.size else offset) =
      (if whence = 0 then 0 else if whence = 1 then (pos : Int) else content.length) + offset := by
    rw [hc]
    by_cases w0 : whence = 0
    · simp [w0]
    · by_cases w1 : whence = 1
      · rw [if_neg w0, if_pos w1, if_pos w1, if_neg w0, if_pos w1]; omega
      · simp [w0, w1]
  simp only [key]
  rw [if_pos ⟨hw, ht⟩]
  exact ⟨_, rfl, ⟨hc, by simp, ⟨hr.1, hr.2.1, by simp⟩, .inl rfl⟩, rfl⟩

theorem readMany_ok (hg : NoErrors g) : ∀ (sizes : List Nat) (f : Fd) (pos : Nat), Sees f content pos →
    ∃ ls f', readMany g f sizes = ok (ls, f') ∧ ls.length = sizes.length ∧ ls.flatten = slice content pos ls.flatten.length ∧
      Sees f' content (pos + ls.flatten.length) ∧ f'.max = f.max ∧
      (∀ i size l, sizes[i]? = some size → ls[i]? = some l → l.length ≤ size ∧ (l = [] → size = 0 ∨ content.length ≤ pos + (ls.take i).flatten.length))
  | [], f, pos, h => ⟨[], f, rfl, rfl, by simp [slice_zero], by simpa using h, rfl, by simp⟩
  | size :: sizes, f, pos, h => by
    obtain ⟨n, f1, m1, e1, e2, e3, e4, e5, -⟩ := read_ok hg (m := List.replicate size 0) (p := 0) (size := size) h (by simp)
    obtain ⟨ls, f', g1, g2, g3, g4, g5, g6⟩ := readMany_ok hg sizes f1 (pos + n) e4
    have hl : (slice content pos n).length = n := by rw [slice_len_le]; have := e2.inside; omega
    have htake : m1.take n = slice content pos n := by
      apply List.ext_getElem?
      intro i
      rw [List.getElem?_take]
      by_cases hi : i < n
      · rw [if_pos hi]
        have := e3.inside i (by omega)
        rwa [Nat.zero_add] at this
      · rw [if_neg hi, List.getElem?_eq_none (by omega)]
    refine ⟨slice content pos n :: ls, f', ?_, by simp [g2], ?_, ?_, by omega, ?_⟩
    · simp only [readMany, e1, ok_bind, g1, Int.toNat_natCast, htake]
    · rw [List.flatten_cons, List.length_append, slice_add, hl, ← g3]
    · rw [List.flatten_cons, List.length_append, hl, ← Nat.add_assoc]; exact g4
    · intro i sz l hsz hlx
      cases i with
      | zero =>
        simp only [List.getElem?_cons_zero, Option.some.injEq] at hsz hlx
        subst hsz hlx
        refine ⟨by rw [hl]; exact e2.le, fun h0 => ?_⟩
        have : n = 0 := by rw [h0] at hl; exact hl.symm
        simpa using e2.progress this
      | succ i =>
        obtain ⟨q1, q2⟩ := g6 i sz l (by simpa using hsz) (by simpa using hlx)
        refine ⟨q1, fun h0 => ?_⟩
        rcases q2 h0 with h | h
        · exact .inl h
        · exact .inr (by rw [List.take_succ_cons, List.flatten_cons, List.length_append, hl]; omega)

theorem sysWrite_ok (hg : NoErrors g) (h : Sees f content pos) (h0 : f.size = 0) (bs : List Byte) :
    ∃ (n : Nat) (f' : Fd) (content' : List Byte), sysWrite g f bs = ((n : Int), f') ∧ n ≤ bs.length ∧ (n = 0 → bs = []) ∧ Sees f' content' (pos + n) ∧
      ∀ i, content'[i]? = if pos ≤ i ∧ i < pos + n then bs[i - pos]? else if i < content.length then content[i]? else if i < pos ∧ n ≠ 0 then some 0 else none := by
  have hp : f.pos = pos := by rw [h.place, h0]; rfl
  unfold sysWrite
  cases hc : g f.calls with
  | none => exact absurd hc (hg _)
  | some c =>
    obtain ⟨n, hn⟩ : ∃ n, n = transfer c bs.length bs.length := ⟨_, rfl⟩
    simp only [← hn, h.file, hp]
    refine ⟨n, _, _, rfl, by unfold transfer at hn; omega, fun h => List.eq_nil_of_length_eq_zero (by unfold transfer at hn; omega), ⟨rfl, by simp only; omega, h.room, .inl h0⟩, fun i => ?_⟩
    have hle : n ≤ bs.length := by unfold transfer at hn; omega
    by_cases hz : n = 0
    · rw [if_pos hz, if_neg (by omega)]
      by_cases hi : i < content.length
      · rw [if_pos hi]
      · rw [if_neg hi, if_neg (by omega)]; exact List.getElem?_eq_none (l := content) (by omega)
    · rw [if_neg hz]
      have hl : (content.take pos ++ List.replicate (pos - content.length) 0).length = pos := by simp; omega
      have hl2 : (content.take pos ++ List.replicate (pos - content.length) 0 ++ bs.take n).length = pos + n := by rw [List.length_append, hl]; simp; omega
      by_cases h1 : i < pos
      · rw [List.getElem?_append_left (by omega), List.getElem?_append_left (by omega), if_neg (by omega)]
        by_cases h2 : i < content.length
        · rw [if_pos h2, List.getElem?_append_left (by simp; omega), List.getElem?_take, if_pos h1]
        · rw [if_neg h2, if_pos ⟨h1, hz⟩, List.getElem?_append_right (by simp; omega), List.getElem?_replicate, if_pos (by simp; omega)]
      · by_cases h2 : i < pos + n
        · rw [List.getElem?_append_left (by omega), List.getElem?_append_right (by omega), hl, if_pos (by omega), List.getElem?_take, if_pos (by omega)]
        · rw [List.getElem?_append_right (by omega), hl2, if_neg (by omega), List.getElem?_drop, show pos + n + (i - (pos + n)) = i by omega]
          by_cases h3 : i < content.length
          · rw [if_pos h3]
          · rw [if_neg h3, if_neg (by omega), List.getElem?_eq_none (by omega)]

theorem write_ok (hg : NoErrors g) (h : Sees f content pos) (bs : List Byte) :
    ∃ (n : Nat) (f' : Fd) (content' : List Byte), write g f bs = ((n : Int), f') ∧ n ≤ bs.length ∧ (n = 0 → bs = []) ∧ Sees f' content' (pos + n) ∧
      ∀ i, content'[i]? = if pos ≤ i ∧ i < pos + n then bs[i - pos]? else if i < content.length then content[i]? else if i < pos ∧ n ≠ 0 then some 0 else none := by
  unfold write
  have hp := h.place
  have hr := h.room
  by_cases hz : f.size = 0
  · simp only [hz, ne_eq, not_true_eq_false, if_false]
    exact sysWrite_ok hg (f := { f with size := 0 }) ⟨h.file, show f.pos = pos + 0 by omega, ⟨hr.1, hr.2.1, Nat.zero_le _⟩, .inl rfl⟩ rfl bs
  · have hs : Sees { f with size := 0 } content (pos + f.size) := ⟨h.file, by simp only; omega, ⟨hr.1, hr.2.1, by simp⟩, .inl rfl⟩
    obtain ⟨f', e1, e2, e3⟩ := lseek_ok (offset := -(f.size : Int)) (whence := 1) hs (by omega) (by simp; omega)
    simp only [ne_eq, hz, not_false_eq_true, if_true, e1]
    simp at e2
    rw [show ((pos : Int) + f.size + -f.size).toNat = pos by omega] at e2
    exact sysWrite_ok hg e2 e3 bs

end Mes.C
