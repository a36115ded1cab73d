import Verif.Proof.CString
/-
Properties C40–C43 and C52: the memory and string functions of the C library.
-/
namespace Mes.C
open Res Spec

/-! ## C40 memcpy, memmove, memset -/

/-- `memcpy` of disjoint ranges: the destination becomes the source, nothing else changes, the destination pointer is
returned. -/
theorem C40_memcpy (m : Mem) (d s n : Nat) (hd : d + n ≤ m.length) (hs : s + n ≤ m.length)
    (hdis : Disjoint d n s n) : memcpy m d s n = ok (patch m d (slice m s n), d) := by
  obtain ⟨m', h1, _, h3⟩ := memcpyLoop_ok n m d s hd hs (by rcases hdis with h | h <;> omega)
  have hl := length_slice m s n hs
  have : m' = patch m d (slice m s n) := by
    apply eq_patch (by omega)
    intro i; rw [h3, hl]
    by_cases hi : d ≤ i ∧ i < d + n
    · rw [if_pos hi, if_pos hi, getElem?_slice, if_pos (by omega)]
    · rw [if_neg hi, if_neg hi]
  simp [memcpy, h1, this]

example : memcpy [1, 2, 3, 4, 5, 6] 0 3 3 = ok ([4, 5, 6, 4, 5, 6], 0) := by decide

/-- `memmove` for any overlap: the destination becomes what the source was. -/
theorem C40_memmove (m : Mem) (d s n : Nat) (hd : d + n ≤ m.length) (hs : s + n ≤ m.length) :
    memmove m d s n = ok (patch m d (slice m s n), d) := by
  have key : ∀ m', (∀ i, m'[i]? = if d ≤ i ∧ i < d + n then m[s + (i - d)]? else m[i]?) →
      m' = patch m d (slice m s n) := by
    intro m' h3
    have hl := length_slice m s n hs
    apply eq_patch (by omega)
    intro i; rw [h3, hl]
    by_cases hi : d ≤ i ∧ i < d + n
    · rw [if_pos hi, if_pos hi, getElem?_slice, if_pos (by omega)]
    · rw [if_neg hi, if_neg hi]
  unfold memmove
  by_cases hlt : d < s
  · obtain ⟨m', h1, _, h3⟩ := memcpyLoop_ok n m d s hd hs (by omega)
    simp [hlt, memcpy, h1, key m' h3]
  · obtain ⟨m', h1, _, h3⟩ := memmoveBack_ok n m d s hd hs (by omega)
    simp [hlt, h1, key m' h3]

example : memmove [1, 2, 3, 4, 5] 1 0 4 = ok ([1, 1, 2, 3, 4], 1) := by decide
example : memmove [1, 2, 3, 4, 5] 0 1 4 = ok ([2, 3, 4, 5, 5], 0) := by decide

/-- `bcopy` has its arguments the other way round and is otherwise `memmove`. -/
theorem C40_bcopy (m : Mem) (s d n : Nat) (hd : d + n ≤ m.length) (hs : s + n ≤ m.length) :
    bcopy m s d n = ok (patch m d (slice m s n)) := by
  simp [bcopy, C40_memmove m d s n hd hs]

/-- `memset` fills exactly the range with the low byte of `c`. -/
theorem C40_memset (m : Mem) (s n : Nat) (c : Int) (b : UInt8) (hb : c % 256 = b.toNat) (hs : s + n ≤ m.length) :
    memset m s c n = ok (patch m s (List.replicate n b), s) := by
  obtain ⟨m', h1, _, h3⟩ := memsetLoop_ok c n m s hs
  have hbyte : toByte c = b := by simp [toByte, hb]
  have : m' = patch m s (List.replicate n b) := by
    apply eq_patch (by simpa using hs)
    intro i; rw [h3, List.length_replicate]
    by_cases hi : s ≤ i ∧ i < s + n
    · rw [if_pos hi, if_pos hi, List.getElem?_replicate, if_pos (by omega), hbyte]
    · rw [if_neg hi, if_neg hi]
  simp [memset, h1, this]

example : memset [9, 9, 9, 9] 1 (-1) 2 = ok ([9, 255, 255, 9], 1) := by decide

/-- `bzero`. -/
theorem C40_bzero (m : Mem) (s n : Nat) (hs : s + n ≤ m.length) :
    bzero m s n = ok (patch m s (List.replicate n 0)) := by
  simp [bzero, C40_memset m s n 0 0 (by decide) hs]

/-! ## C41 strlen, strcpy, strcat, strncpy, strncat -/

theorem C41_strlen (m : Mem) (a : Nat) (s : List UInt8) (h : CStr m a s) (hmax : s.length ≤ 2147483647) :
    strlen m a = ok s.length := strlen_ok h hmax

example : CStr [7, 104, 105, 0] 1 [104, 105] := by decide
example : strlen [7, 104, 105, 0] 1 = ok 2 := by decide

theorem C41_strcpy (m : Mem) (dest src : Nat) (s : List UInt8) (h : CStr m src s)
    (hroom : dest + (s.length + 1) ≤ m.length) (hdis : Disjoint dest (s.length + 1) src (s.length + 1)) :
    strcpy m dest src = ok (patch m dest (s ++ [0]), dest) := by
  obtain ⟨m', h1, h2⟩ := strcpyLoop_ok s m (m.length + 1) dest src h (by have := h.lt; omega) (by omega)
    (by rcases hdis with h | h <;> omega)
  simp [strcpy, h1, h2.eq_patch (by simpa using hroom)]

example : strcpy [104, 105, 0, 9, 9, 9, 9] 3 0 = ok ([104, 105, 0, 104, 105, 0, 9], 3) := by decide

/-- `strcat` appends: what changes is exactly the text and terminator written over the old terminator. -/
theorem C41_strcat (m : Mem) (to src : Nat) (t s : List UInt8) (ht : CStr m to t) (hs : CStr m src s)
    (hroom : to + t.length + (s.length + 1) ≤ m.length)
    (hdis : Disjoint (to + t.length) (s.length + 1) src (s.length + 1)) :
    strcat m to src = ok (patch m (to + t.length) (s ++ [0]), to) := by
  obtain ⟨m', h1, h2⟩ := strcpyLoop_ok s m (m.length + 1) (to + t.length) src hs (by have := hs.lt; omega) (by omega)
    (by rcases hdis with h | h <;> omega)
  simp [strcat, strchr_zero ht, h1, h2.eq_patch (by simpa using hroom)]

/-- After such a patch the destination holds the concatenation. -/
theorem C41_strcat_result (m : Mem) (to src : Nat) (t s : List UInt8) (ht : CStr m to t) (hs : CStr m src s)
    (hroom : to + t.length + (s.length + 1) ≤ m.length)
    (hdis : Disjoint (to + t.length) (s.length + 1) src (s.length + 1)) :
    ∃ m', strcat m to src = ok (m', to) ∧ CStr m' to (t ++ s) := by
  refine ⟨_, C41_strcat m to src t s ht hs hroom hdis, fun i hi => ?_, ?_⟩
  · rw [getElem?_patch _ _ _ _ (by simpa using hroom)]
    simp only [List.length_append, List.length_cons, List.length_nil] at hi
    by_cases h1 : i < t.length
    · rw [if_neg (by omega), List.append_assoc, List.getElem?_append_left h1]
      exact ht.at_self i h1
    · have h2 : t.length ≤ i := by omega
      rw [if_pos (by simp only [List.length_append, List.length_cons, List.length_nil]; omega), List.append_assoc,
        List.getElem?_append_right (l₁ := t) h2]
      congr 1; omega
  · intro b hb
    rcases List.mem_append.mp hb with h | h
    · exact ht.2 b h
    · exact hs.2 b h

example : strcat [97, 0, 9, 9, 98, 99, 0] 0 4 = ok ([97, 98, 99, 0, 98, 99, 0], 0) := by decide

/-- `strncpy` writes exactly `n` bytes: the first `n` characters of the source, padded with NULs. -/
theorem C41_strncpy (m : Mem) (to src n : Nat) (s : List UInt8) (h : CStr m src s)
    (hroom : to + n ≤ m.length) (hdis : Disjoint to n src (s.length + 1)) :
    strncpy m to src n = ok (patch m to (s.take n ++ List.replicate (n - s.length) 0), to) := by
  by_cases hn : n = 0
  · subst hn; simp [strncpy, patch_nil]
  obtain ⟨m1, p1, f, left, h1, h2, h3, h4⟩ := strncpyCopy_ok n s m to src h hroom
    (by rcases hdis with h | h <;> omega)
  have hlen : (s.take n).length = min n s.length := by simp
  by_cases hsn : s.length ≤ n
  · rw [if_pos hsn] at h4
    obtain ⟨m2, g1, g2, g3⟩ := memsetLoop_ok 0 (n - s.length) m1 p1 (by rw [h3.len]; omega)
    have hp : Patched m1 m2 p1 (List.replicate (n - s.length) 0) := by
      refine ⟨g2, fun i hi => ?_, fun i hi => ?_⟩
      · simp only [List.length_replicate] at hi
        rw [g3, if_pos (by omega), List.getElem?_replicate, if_pos hi]; rfl
      · simp only [List.length_replicate] at hi
        rw [g3, if_neg (by omega)]
    have := (h3.append (h2 ▸ hp)).eq_patch (by simp; omega)
    simp [strncpy, hn, h1, rd_ok h4.1, h4.2, g1, this]
  · rw [if_neg hsn] at h4
    obtain ⟨⟨b, hb, hb0⟩, hl⟩ := h4
    have := h3.eq_patch (by omega)
    simp only [strncpy, if_neg hn, h1, rd_ok hb, hl, memsetLoop, ok_bind, if_pos hb0, show n - s.length = 0 by omega,
      List.replicate_zero, List.append_nil]
    rw [this]

example : strncpy [97, 98, 0, 9, 9, 9, 9, 9] 3 0 4 = ok ([97, 98, 0, 97, 98, 0, 0, 9], 3) := by decide
example : strncpy [97, 98, 0, 9, 9, 9, 9, 9] 3 0 1 = ok ([97, 98, 0, 97, 9, 9, 9, 9], 3) := by decide

/-- ISO C lets the source of `strncpy` be an array of `n` bytes without terminator; this implementation reads one byte
beyond it: the copy of a two-byte array at the end of memory is undefined. -/
theorem C41_strncpy_unterminated_overread : strncpy [9, 9, 97, 98] 0 2 2 = ub := by decide

/-- `strncat` appends the first `n` characters and a terminator. -/
theorem C41_strncat (m : Mem) (to src n : Nat) (t s : List UInt8) (ht : CStr m to t) (hs : CStr m src s)
    (hroom : to + t.length + ((s.take n).length + 1) ≤ m.length)
    (hdis : Disjoint (to + t.length) ((s.take n).length + 1) src (s.length + 1)) :
    strncat m to src n = ok (patch m (to + t.length) (s.take n ++ [0]), to) := by
  by_cases hn : n = 0
  · subst hn
    have : patch m (to + t.length) [0] = m := by
      apply List.ext_getElem?
      intro i
      rw [getElem?_patch _ _ _ _ (by simpa using hroom)]
      by_cases hi : to + t.length ≤ i ∧ i < to + t.length + [(0 : UInt8)].length
      · rw [if_pos hi]
        have : i = to + t.length := by simp at hi; omega
        subst this; simp [ht.rd_end]
      · rw [if_neg hi]
    simp [strncat, this]
  · obtain ⟨m', h1, h2⟩ := strncatLoop_ok n s m (to + t.length) src hs (by omega)
      (by rcases hdis with h | h <;> omega)
    have := h2.eq_patch (by simpa using hroom)
    simp [strncat, hn, strchr_zero ht, h1, this]

example : strncat [97, 0, 9, 9, 98, 99, 0] 0 4 1 = ok ([97, 98, 0, 9, 98, 99, 0], 0) := by decide

/-! ## C42 comparison -/

/-- `strcmp` returns zero exactly for equal strings. -/
theorem C42_strcmp_eq (m : Mem) (a b : Nat) (s t : List UInt8) (hs : CStr m a s) (ht : CStr m b t) :
    ∃ r, strcmp m a b = ok r ∧ (r = 0 ↔ s = t) := by
  obtain ⟨r, h1, h2, _⟩ := strcmpLoop_ok s t (m.length + 1) a b hs ht (by have := hs.lt; omega)
  exact ⟨r, h1, h2⟩

/-- `strncmp` returns zero exactly when the strings agree in their first `n` characters. -/
theorem C42_strncmp_eq (m : Mem) (a b n : Nat) (s t : List UInt8) (hs : CStr m a s) (ht : CStr m b t) :
    ∃ r, strncmp m a b n = ok r ∧ (r = 0 ↔ s.take n = t.take n) := by
  cases n with
  | zero => exact ⟨0, rfl, by simp⟩
  | succ n =>
    obtain ⟨r, h1, h2, _⟩ := strncmpLoop_ok n s t a b hs ht
    exact ⟨r, h1, h2⟩

/-- `memcmp` (and `bcmp`) returns zero exactly for equal byte sequences. -/
theorem C42_memcmp_eq (m : Mem) (a b : Nat) (s t : List UInt8) (hs : At m a s) (ht : At m b t)
    (hl : s.length = t.length) : ∃ r, memcmp m a b s.length = ok r ∧ (r = 0 ↔ s = t) := by
  cases hn : s.length with
  | zero =>
    refine ⟨0, rfl, ?_⟩
    rw [hn] at hl
    simp [List.eq_nil_of_length_eq_zero hn, List.eq_nil_of_length_eq_zero hl.symm]
  | succ n =>
    obtain ⟨r, h1, h2, _⟩ := memcmpLoop_ok n s t a b hs ht hn (by omega)
    exact ⟨r, h1, h2⟩

/-- The full ordering property of `strcmp`: the sign is that of the unsigned comparison. -/
def StrcmpUnsignedOrder : Prop :=
  ∀ (m : Mem) (a b : Nat) (s t : List UInt8), CStr m a s → CStr m b t →
    ∃ r, strcmp m a b = ok r ∧ (r < 0 ↔ s < t)

/-- The same for `memcmp`. -/
def MemcmpUnsignedOrder : Prop :=
  ∀ (m : Mem) (a b : Nat) (s t : List UInt8), At m a s → At m b t → s.length = t.length →
    ∃ r, memcmp m a b s.length = ok r ∧ (r < 0 ↔ s < t)

/-- False: bytes from 128 on compare as negative numbers. -/
theorem C42_strcmp_order_false : ¬ StrcmpUnsignedOrder := by
  intro h
  obtain ⟨r, h1, h2⟩ := h [200, 0, 97, 0] 0 2 [200] [97]
    (by decide)
    (by decide)
  have h3 : strcmp [200, 0, 97, 0] 0 2 = ok (-153) := by decide
  rw [h3] at h1
  cases h1
  exact absurd (h2.mp (by decide)) (by decide)

theorem C42_memcmp_order_false : ¬ MemcmpUnsignedOrder := by
  intro h
  obtain ⟨r, h1, h2⟩ := h [200, 97] 0 1 [200] [97]
    (by decide)
    (by decide) rfl
  have h3 : memcmp [200, 97] 0 1 1 = ok (-153) := by decide
  rw [show [(200 : UInt8)].length = 1 from rfl, h3] at h1
  cases h1
  exact absurd (h2.mp (by decide)) (by decide)

/-- Lexicographic comparison of 7-bit strings is not changed by mapping to signed values or by the terminator. -/
theorem ascii_lt_iff : ∀ (s t : List UInt8), (∀ b ∈ s, b < 128 ∧ b ≠ 0) → (∀ b ∈ t, b < 128 ∧ b ≠ 0) →
    ((s.map sc ++ [0] : List Int) < t.map sc ++ [0] ↔ s < t) := by
  have pos : ∀ b : UInt8, b < 128 ∧ b ≠ 0 → 0 < sc b := by
    intro b ⟨h1, h2⟩
    have h1 : b.toNat < 128 := h1
    have h2 : b.toNat ≠ 0 := fun h => h2 (UInt8.toNat_inj.mp h)
    simp only [sc, if_pos h1]; omega
  intro s
  induction s with
  | nil =>
    intro t _ ht
    cases t with
    | nil => simp
    | cons y t =>
      have := pos y (ht y (by simp))
      simp [List.cons_lt_cons_iff]; omega
  | cons x s ih =>
    intro t hs ht
    have hx := pos x (hs x (by simp))
    cases t with
    | nil => simp [List.cons_lt_cons_iff]; omega
    | cons y t =>
      have hy := pos y (ht y (by simp))
      have hlt : sc x < sc y ↔ x < y := by
        have h1 : x.toNat < 128 := (hs x (by simp)).1
        have h2 : y.toNat < 128 := (ht y (by simp)).1
        simp only [sc, if_pos h1, if_pos h2, UInt8.lt_iff_toNat_lt]; omega
      simp only [List.map_cons, List.cons_append, List.cons_lt_cons_iff, hlt, sc_eq_iff]
      rw [ih t (fun b hb => hs b (by simp [hb])) (fun b hb => ht b (by simp [hb]))]

/-- Partial: for 7-bit strings the sign of `strcmp` is the lexicographic order.  Missing: bytes from 128 on, where
the property is false (`C42_strcmp_order_false`). -/
theorem C42_strcmp_order_partial (m : Mem) (a b : Nat) (s t : List UInt8) (hs : CStr m a s) (ht : CStr m b t)
    (has : ∀ c ∈ s, c < 128) (hat : ∀ c ∈ t, c < 128) :
    ∃ r, strcmp m a b = ok r ∧ (r < 0 ↔ s < t) ∧ (r = 0 ↔ s = t) := by
  obtain ⟨r, h1, h2, h3⟩ := strcmpLoop_ok s t (m.length + 1) a b hs ht (by have := hs.lt; omega)
  refine ⟨r, h1, ?_, h2⟩
  rw [h3, ascii_lt_iff s t (fun b hb => ⟨has b hb, hs.2 b hb⟩) (fun b hb => ⟨hat b hb, ht.2 b hb⟩)]

/-- What `strcmp` does order by, for all bytes: the signed character values, the terminator counting as 0. -/
theorem C42_strcmp_signed_order (m : Mem) (a b : Nat) (s t : List UInt8) (hs : CStr m a s) (ht : CStr m b t) :
    ∃ r, strcmp m a b = ok r ∧ (r < 0 ↔ (s.map sc ++ [0] : List Int) < t.map sc ++ [0]) := by
  obtain ⟨r, h1, _, h3⟩ := strcmpLoop_ok s t (m.length + 1) a b hs ht (by have := hs.lt; omega)
  exact ⟨r, h1, h3⟩

/-- Partial: `memcmp` on 7-bit data. -/
theorem C42_memcmp_order_partial (m : Mem) (a b : Nat) (s t : List UInt8) (hs : At m a s) (ht : At m b t)
    (hl : s.length = t.length) (has : ∀ c ∈ s, c < 128) (hat : ∀ c ∈ t, c < 128) :
    ∃ r, memcmp m a b s.length = ok r ∧ (r < 0 ↔ s < t) := by
  have conv : ∀ (s t : List UInt8), (∀ c ∈ s, c < 128) → (∀ c ∈ t, c < 128) →
      ((s.map sc : List Int) < t.map sc ↔ s < t) := by
    intro s
    induction s with
    | nil => intro t _ _; cases t <;> simp
    | cons x s ih =>
      intro t hs ht
      cases t with
      | nil => simp
      | cons y t =>
        have hlt : sc x < sc y ↔ x < y := by
          have h1 : x.toNat < 128 := hs x (by simp)
          have h2 : y.toNat < 128 := ht y (by simp)
          simp only [sc, if_pos h1, if_pos h2, UInt8.lt_iff_toNat_lt]; omega
        simp only [List.map_cons, List.cons_lt_cons_iff, hlt, sc_eq_iff]
        rw [ih t (fun b hb => hs b (by simp [hb])) (fun b hb => ht b (by simp [hb]))]
  cases hn : s.length with
  | zero =>
    refine ⟨0, rfl, ?_⟩
    rw [hn] at hl
    simp [List.eq_nil_of_length_eq_zero hn, List.eq_nil_of_length_eq_zero hl.symm]
  | succ n =>
    obtain ⟨r, h1, _, h3⟩ := memcmpLoop_ok n s t a b hs ht hn (by omega)
    exact ⟨r, h1, by rw [h3, conv s t has hat]⟩

example : strcmp [97, 98, 0, 97, 0] 0 3 = ok 98 := by decide

/-! ## C43 searching -/

theorem map_findIdx_sc (s : List UInt8) (b : UInt8) :
    s.findIdx? (fun x => decide (sc x = sc b)) = s.idxOf? b := by
  have : (fun x => decide (sc x = sc b)) = (fun x => x == b) := by
    funext x
    rw [Bool.eq_iff_iff]
    simp [sc_eq_iff]
  rw [this, List.idxOf?]

/-- The full property of `strchr`: for every byte `b`, passed as its unsigned value, the address of the first `b` of
the string including its terminator, or NULL. -/
def StrchrFinds : Prop :=
  ∀ (m : Mem) (a : Nat) (s : List UInt8) (b : UInt8), CStr m a s →
    strchr m a (b.toNat : Int) = ok (((s ++ [0]).idxOf? b).map (a + ·))

/-- False: a byte from 128 on is never found by its value. -/
theorem C43_strchr_false : ¬ StrchrFinds := by
  intro h
  have h1 := h [200, 0] 0 [200] 200
    (by decide)
  exact absurd h1 (by decide)

/-- Partial: `strchr` returns the first occurrence for every byte passed as a `char` value (which is the value itself
below 128).  Missing: characters from 128 on passed as unsigned values, where the property is false. -/
theorem C43_strchr_partial (m : Mem) (a : Nat) (s : List UInt8) (b : UInt8) (h : CStr m a s) :
    strchr m a (if b.toNat < 128 then (b.toNat : Int) else (b.toNat : Int) - 256) =
      ok (((s ++ [0]).idxOf? b).map (a + ·)) := by
  change strchr m a (sc b) = _
  by_cases hb : b = 0
  · subst hb
    have h0 : s.idxOf? 0 = none := by
      rw [List.idxOf?_eq_none_iff]; exact fun hm => h.2 0 hm rfl
    have h0' : List.findIdx? (fun x => x == 0) s = none := h0
    rw [sc_zero, strchr_zero h, List.idxOf?, List.findIdx?_append, h0']
    simp
  · rw [strchr_ne h _ (mt sc_ne_zero.mp hb), map_findIdx_sc]
    unfold List.idxOf?
    rw [List.findIdx?_append]
    cases hc : List.findIdx? (fun x => x == b) s with
    | some i => simp
    | none => simp [List.findIdx?_cons, Ne.symm hb]

example : strchr [97, 98, 99, 98, 0] 0 98 = ok (some 1) := by decide

/-- `memchr`, with the same restriction. -/
theorem C43_memchr_partial (m : Mem) (a : Nat) (l : List UInt8) (b : UInt8) (h : At m a l) :
    memchr m a (if b.toNat < 128 then (b.toNat : Int) else (b.toNat : Int) - 256) l.length =
      ok ((l.idxOf? b).map (a + ·)) := by
  change memchr m a (sc b) _ = _
  rw [memchr_ok (sc b) l a h, map_findIdx_sc]

/-- `memchr` does not find a byte from 128 on by its unsigned value. -/
theorem C43_memchr_false : memchr [200] 0 200 1 = ok none := by decide

/-- The full property of `strrchr`: the last occurrence, the terminator included, or NULL. -/
def StrrchrFinds : Prop :=
  ∀ (m : Mem) (a : Nat) (s : List UInt8) (b : UInt8), CStr m a s → s.length ≤ 2147483647 →
    (∃ i, strrchr m a (sc b) = ok (some (a + i)) ∧ IsLast (s ++ [0]) b i) ∨
    (strrchr m a (sc b) = ok none ∧ b ∉ s ++ [0])

/-- False: the terminator of the empty string is not found. -/
theorem C43_strrchr_false : ¬ StrrchrFinds := by
  intro h
  have h0 : strrchr [0] 0 (sc 0) = ok none := by decide
  rcases h [0] 0 [] 0 (by decide) (by decide) with
    ⟨i, h1, _⟩ | ⟨_, h1⟩
  · rw [h0] at h1; cases h1
  · exact h1 (by decide)

/-- Partial: everything but searching the terminator of the empty string. -/
theorem C43_strrchr_partial (m : Mem) (a : Nat) (s : List UInt8) (b : UInt8) (h : CStr m a s)
    (hmax : s.length ≤ 2147483647) (hne : ¬ (s = [] ∧ b = 0)) :
    (∃ i, strrchr m a (sc b) = ok (some (a + i)) ∧ IsLast (s ++ [0]) b i) ∨
    (strrchr m a (sc b) = ok none ∧ b ∉ s ++ [0]) := by
  by_cases hs : s = []
  · subst hs
    right
    have hb : b ≠ 0 := fun hb => hne ⟨rfl, hb⟩
    exact ⟨by simp [strrchr, strlen_ok h hmax], by simpa using hb⟩
  · have hl : s.length ≠ 0 := by simpa using hs
    by_cases hb : b = 0
    · subst hb
      left
      refine ⟨s.length, by simp [strrchr, strlen_ok h hmax, hl, rd_ok h.rd_end], by simp, fun j hj => ?_⟩
      rw [List.getElem?_eq_none (by simp; omega)]; simp
    · have hsc : sc b ≠ 0 := mt sc_ne_zero.mp hb
      have hrun : strrchr m a (sc b) = strrchrLoop m a (sc b) s.length := by
        simp [strrchr, strlen_ok h hmax, hl, rd_ok h.rd_end, hsc]
      rw [hrun]
      rcases strrchrLoop_ok h (sc b) s.length (Nat.le_refl _) with ⟨i, h1, h2, ⟨b', h3, h3'⟩, h4⟩ | ⟨h1, h2⟩
      · left
        refine ⟨i, h2, ?_, fun j hj hjb => ?_⟩
        · rw [List.getElem?_append_left h1, h3, sc_inj h3']
        · by_cases hjl : j < s.length
          · rw [List.getElem?_append_left hjl] at hjb
            exact h4 j b hj hjl hjb rfl
          · rw [List.getElem?_append_right (by omega)] at hjb
            have := List.mem_of_getElem? hjb
            simp at this; exact hb this
      · right
        refine ⟨h1, fun hm => ?_⟩
        rcases List.mem_append.mp hm with hm | hm
        · obtain ⟨j, hj⟩ := List.mem_iff_getElem?.mp hm
          exact h2 j b ((List.getElem?_eq_some_iff.mp hj).1) hj rfl
        · simp at hm; exact hb hm

example : strrchr [97, 98, 97, 0] 0 97 = ok (some 2) := by decide

/-- `strspn`: length of the longest prefix inside the set. -/
theorem C43_strspn (m : Mem) (a set : Nat) (s t : List UInt8) (hs : CStr m a s) (ht : CStr m set t) :
    strspn m a set = ok (s.takeWhile (· ∈ t)).length := by
  have := spanLoop_ok true ht s (m.length + 1) a hs (by have := hs.lt; omega)
  simp only [strspn, this, ok_bind]
  simp

/-- `strcspn`: length of the longest prefix outside the set. -/
theorem C43_strcspn (m : Mem) (a set : Nat) (s t : List UInt8) (hs : CStr m a s) (ht : CStr m set t) :
    strcspn m a set = ok (s.takeWhile (· ∉ t)).length := by
  have := spanLoop_ok false ht s (m.length + 1) a hs (by have := hs.lt; omega)
  simp only [strcspn, this, ok_bind]
  simp

example : strspn [97, 98, 99, 0, 98, 97, 0] 0 4 = ok 2 := by decide
example : strcspn [97, 98, 99, 0, 99, 0] 0 4 = ok 2 := by decide

/-- The full property of `strpbrk`: first character that is in the set, or NULL. -/
def StrpbrkFinds : Prop :=
  ∀ (m : Mem) (a set : Nat) (s t : List UInt8), CStr m a s → CStr m set t →
    strpbrk m a set = ok ((s.findIdx? (· ∈ t)).map (a + ·))

/-- False: when there is none, the result is a pointer to the terminator instead of NULL. -/
theorem C43_strpbrk_false : ¬ StrpbrkFinds := by
  intro h
  have := h [97, 0, 98, 0] 0 2 [97] [98]
    (by decide)
    (by decide)
  exact absurd this (by decide)

/-- Partial: when some character is in the set, `strpbrk` returns the first such one. -/
theorem C43_strpbrk_partial (m : Mem) (a set : Nat) (s t : List UInt8) (hs : CStr m a s) (ht : CStr m set t)
    (hex : ∃ b ∈ s, b ∈ t) : strpbrk m a set = ok ((s.findIdx? (· ∈ t)).map (a + ·)) := by
  have h1 := spanLoop_ok false ht s (m.length + 1) a hs (by have := hs.lt; omega)
  have h2 : ∀ (s : List UInt8), (∃ b ∈ s, b ∈ t) →
      s.findIdx? (· ∈ t) = some (s.takeWhile (fun b => decide (decide (b ∈ t) = false))).length := by
    intro s
    induction s with
    | nil => rintro ⟨b, hb, _⟩; cases hb
    | cons x s ih =>
      intro hex
      rw [List.findIdx?_cons, List.takeWhile_cons]
      by_cases hx : x ∈ t
      · simp [hx]
      · have : ∃ b ∈ s, b ∈ t := by
          obtain ⟨b, hb, hbt⟩ := hex
          rcases List.mem_cons.mp hb with rfl | hb
          · exact absurd hbt hx
          · exact ⟨b, hb, hbt⟩
        have := ih this
        simp only [decide_eq_true_eq] at this ⊢
        rw [if_neg hx, this]
        simp [hx]
  simp only [strpbrk, h1, ok_bind, h2 s hex, Option.map_some]

/-- `memmem`: the first place where the needle occurs, or NULL. -/
theorem C43_memmem (m : Mem) (a b : Nat) (hay needle : List UInt8) (hh : At m a hay) (hn : At m b needle) :
    memmem m a hay.length b needle.length = ok ((firstMatch hay needle).map (a + ·)) := by
  unfold memmem firstMatch
  by_cases hl : needle.length ≤ hay.length + 1
  · have h1 := memmemLoop_ok hn (hay.length + 1 - needle.length) hay a hh (by omega)
    rw [h1]
    congr 2
    -- beyond the last place where the needle fits, it is not a prefix
    have hsplit : List.range (hay.length + 1) = List.range (hay.length + 1 - needle.length) ++
        (List.range needle.length).map (hay.length + 1 - needle.length + ·) := by
      rw [← List.range_add]; congr 1; omega
    rw [hsplit, List.find?_append]
    have hnone : List.find? (fun i => needle.isPrefixOf (hay.drop i))
        ((List.range needle.length).map (hay.length + 1 - needle.length + ·)) = none := by
      rw [List.find?_eq_none]
      intro x hx
      simp only [List.mem_map, List.mem_range] at hx
      obtain ⟨y, hy, rfl⟩ := hx
      intro hpre
      have := (List.isPrefixOf_iff_prefix.mp hpre).length_le
      simp at this; omega
    rw [hnone]; simp
  · rw [show hay.length + 1 - needle.length = 0 by omega]
    simp only [memmemLoop]
    rw [List.find?_eq_none.mpr]
    · rfl
    · intro x _ hpre
      have := (List.isPrefixOf_iff_prefix.mp hpre).length_le
      simp at this; omega

/-- `strstr`: the first occurrence of a string in a string, or NULL. -/
theorem C43_strstr (m : Mem) (a b : Nat) (hay needle : List UInt8) (hh : CStr m a hay) (hn : CStr m b needle)
    (h1 : hay.length ≤ 2147483647) (h2 : needle.length ≤ 2147483647) :
    strstr m a b = ok ((firstMatch hay needle).map (a + ·)) := by
  simp [strstr, strlen_ok hh h1, strlen_ok hn h2, C43_memmem m a b hay needle hh.at_self hn.at_self]

example : strstr [97, 98, 97, 98, 99, 0, 97, 98, 99, 0] 0 6 = ok (some 2) := by decide
example : firstMatch [97, 98, 97, 98, 99] [97, 98, 99] = some 2 := by decide

/-! ## C52 argz vectors -/

theorem argzLoop_ok {m : Mem} : ∀ (strs : List (List UInt8)) (a fuel : Nat), At m a (argzBytes strs) →
    (∀ s ∈ strs, (∀ b ∈ s, b ≠ 0) ∧ s.length ≤ 2147483647) → (argzBytes strs).length < fuel →
    argzLoop m fuel a (argzBytes strs).length = ok (argzAddrs a strs) := by
  intro strs
  induction strs with
  | nil =>
    intro a fuel _ _ hf
    obtain ⟨fuel, rfl⟩ : ∃ f, fuel = f + 1 := ⟨fuel - 1, by omega⟩
    simp [argzLoop, argzBytes, argzAddrs]
  | cons s strs ih =>
    intro a fuel h hz hf
    obtain ⟨fuel, rfl⟩ : ∃ f, fuel = f + 1 := ⟨fuel - 1, by omega⟩
    have hlen : (argzBytes (s :: strs)).length = s.length + 1 + (argzBytes strs).length := by
      simp only [argzBytes, List.map_cons, List.flatten_cons, List.length_append, List.length_cons, List.length_nil]
    have hcs : CStr m a s := by
      refine ⟨fun i hi => ?_, (hz s (by simp)).1⟩
      rw [h i (by rw [hlen]; simp at hi; omega)]
      simp only [argzBytes, List.map_cons, List.flatten_cons]
      rw [List.getElem?_append_left hi]
    have hrest : At m (a + (s.length + 1)) (argzBytes strs) := by
      have := h.drop (s.length + 1)
      have hd : (argzBytes (s :: strs)).drop (s.length + 1) = argzBytes strs := by
        simp only [argzBytes, List.map_cons, List.flatten_cons]
        rw [List.drop_append_of_le_length (by simp)]
        simp
      rwa [hd] at this
    rw [hlen] at hf ⊢
    simp only [argzLoop, if_neg (show ¬ (s.length + 1 + (argzBytes strs).length = 0) by omega),
      strlen_ok hcs (hz s (by simp)).2, ok_bind]
    rw [ubUnless_true (by omega), ok_bind, Nat.add_sub_cancel_left,
      ih _ fuel hrest (fun t ht => hz t (by simp [ht])) (by omega)]
    simp [argzAddrs, Nat.add_assoc]

/-- `argz_extract` stores the address of each string in order. -/
theorem C52_argz_extract (m : Mem) (a : Nat) (strs : List (List UInt8)) (h : At m a (argzBytes strs))
    (hz : ∀ s ∈ strs, (∀ b ∈ s, b ≠ 0) ∧ s.length ≤ 2147483647) :
    argzExtract m a (argzBytes strs).length = ok (argzAddrs a strs) :=
  argzLoop_ok strs a _ h hz (by omega)

/-- `argz_count` returns the number of strings. -/
theorem C52_argz_count (m : Mem) (a : Nat) (strs : List (List UInt8)) (h : At m a (argzBytes strs))
    (hz : ∀ s ∈ strs, (∀ b ∈ s, b ≠ 0) ∧ s.length ≤ 2147483647) :
    argzCount m a (argzBytes strs).length = ok strs.length := by
  have hl : ∀ (strs : List (List UInt8)) a, (argzAddrs a strs).length = strs.length := by
    intro strs
    induction strs with
    | nil => intro a; rfl
    | cons s strs ih => intro a; simp [argzAddrs, ih]
  simp [argzCount, argzLoop_ok strs a ((argzBytes strs).length + 1) h hz (by omega), hl]

example : argzBytes [[97], [], [98, 99]] = [97, 0, 0, 98, 99, 0] := by decide
example : argzExtract [9, 97, 0, 0, 98, 99, 0] 1 6 = ok [1, 3, 4] := by decide

end Mes.C
