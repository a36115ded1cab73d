import Verif.Model.CString
import Verif.Proof.Bytes
/- Loop lemmas for the string functions. -/
namespace Mes.C
open Res Spec

/-- The forward copy loop, pointwise. -/
theorem memcpyLoop_ok (n : Nat) : ∀ (m : Mem) (d s : Nat), d + n ≤ m.length → s + n ≤ m.length →
    (d ≤ s ∨ s + n ≤ d) → ∃ m', memcpyLoop m d s n = ok m' ∧ m'.length = m.length ∧
      ∀ i, m'[i]? = if d ≤ i ∧ i < d + n then m[s + (i - d)]? else m[i]? := by
  induction n with
  | zero => intro m d s _ _ _; refine ⟨m, rfl, rfl, fun i => ?_⟩; rw [if_neg (by omega)]
  | succ n ih =>
    intro m d s hd hs hov
    obtain ⟨b, hb⟩ := exists_of_lt (m := m) (a := s) (by omega)
    have hset := getElem?_set' m d (b := b) (h := by omega)
    obtain ⟨m', h1, h2, h3⟩ := ih (m.set d b) (d + 1) (s + 1) (by simp; omega) (by simp; omega) (by omega)
    refine ⟨m', ?_, by simpa using h2, fun i => ?_⟩
    · simp [memcpyLoop, rd_ok hb, wr_ok b (show d < m.length by omega), h1]
    · rw [h3, hset, hset]
      by_cases hi : d + 1 ≤ i ∧ i < d + 1 + n
      · rw [if_pos hi, if_neg (by omega), if_pos (by omega)]
        congr 1; omega
      · rw [if_neg hi]
        by_cases hid : i = d
        · subst hid; rw [if_pos rfl, if_pos (by omega), Nat.sub_self, Nat.add_zero, hb]
        · rw [if_neg hid, if_neg (by omega)]

/-- The backward copy loop, pointwise; needs the destination not below the source. -/
theorem memmoveBack_ok (n : Nat) : ∀ (m : Mem) (d s : Nat), d + n ≤ m.length → s + n ≤ m.length →
    s ≤ d → ∃ m', memmoveBack m d s n = ok m' ∧ m'.length = m.length ∧
      ∀ i, m'[i]? = if d ≤ i ∧ i < d + n then m[s + (i - d)]? else m[i]? := by
  induction n with
  | zero => intro m d s _ _ _; refine ⟨m, rfl, rfl, fun i => ?_⟩; rw [if_neg (by omega)]
  | succ n ih =>
    intro m d s hd hs hov
    obtain ⟨b, hb⟩ := exists_of_lt (m := m) (a := s + n) (by omega)
    have hset := getElem?_set' m (d + n) (b := b) (h := by omega)
    obtain ⟨m', h1, h2, h3⟩ := ih (m.set (d + n) b) d s (by simp; omega) (by simp; omega) hov
    refine ⟨m', ?_, by simpa using h2, fun i => ?_⟩
    · simp [memmoveBack, rd_ok hb, wr_ok b (show d + n < m.length by omega), h1]
    · rw [h3, hset, hset]
      by_cases hi : d ≤ i ∧ i < d + n
      · rw [if_pos hi, if_neg (by omega), if_pos (by omega)]
      · rw [if_neg hi]
        by_cases hid : i = d + n
        · subst hid; rw [if_pos rfl, if_pos (by omega), ← hb]; congr 1; omega
        · rw [if_neg hid, if_neg (by omega)]

theorem memsetLoop_ok (c : Int) (n : Nat) : ∀ (m : Mem) (s : Nat), s + n ≤ m.length →
    ∃ m', memsetLoop m s c n = ok m' ∧ m'.length = m.length ∧
      ∀ i, m'[i]? = if s ≤ i ∧ i < s + n then some (toByte c) else m[i]? := by
  induction n with
  | zero => intro m s _; refine ⟨m, rfl, rfl, fun i => ?_⟩; rw [if_neg (by omega)]
  | succ n ih =>
    intro m s hs
    have hset := getElem?_set' m s (b := toByte c) (h := by omega)
    obtain ⟨m', h1, h2, h3⟩ := ih (m.set s (toByte c)) (s + 1) (by simp; omega)
    refine ⟨m', ?_, by simpa using h2, fun i => ?_⟩
    · simp [memsetLoop, wr_ok _ (show s < m.length by omega), h1]
    · rw [h3, hset]
      by_cases hi : s + 1 ≤ i ∧ i < s + 1 + n
      · rw [if_pos hi, if_pos (by omega)]
      · rw [if_neg hi]
        by_cases hid : i = s
        · subst hid; rw [if_pos rfl, if_pos (by omega)]
        · rw [if_neg hid, if_neg (by omega)]

/-- From a pointwise description to a patch. -/
theorem eq_patch {m m' : Mem} {d : Nat} {l : List UInt8} (hd : d + l.length ≤ m.length)
    (h : ∀ i, m'[i]? = if d ≤ i ∧ i < d + l.length then l[i - d]? else m[i]?) : m' = patch m d l := by
  apply List.ext_getElem?
  intro i
  rw [h i, getElem?_patch m l d i hd]

theorem strlenLoop_ok {m : Mem} {s : Nat} {str : List Byte} (h : CStr m s str) (hmax : str.length ≤ INT_MAX) :
    ∀ (k i fuel : Nat), str.length = i + k → k < fuel → strlenLoop m s fuel i = ok str.length := by
  intro k
  induction k with
  | zero =>
    intro i fuel hi hf
    obtain ⟨fuel, rfl⟩ : ∃ f, fuel = f + 1 := ⟨fuel - 1, by omega⟩
    have : m[s + i]? = some 0 := by rw [← h.rd_end]; congr 1; omega
    simp [strlenLoop, rd_ok this]; omega
  | succ k ih =>
    intro i fuel hi hf
    obtain ⟨fuel, rfl⟩ : ∃ f, fuel = f + 1 := ⟨fuel - 1, by omega⟩
    have hlt : i < str.length := by omega
    simp only [strlenLoop, rd_ok (h.rd_lt hlt), ok_bind, if_neg (h.ne hlt)]
    rw [ubUnless_true (by omega), ok_bind]
    exact ih (i + 1) fuel (by omega) (by omega)

theorem strlen_ok {m : Mem} {s : Nat} {str : List Byte} (h : CStr m s str) (hmax : str.length ≤ INT_MAX) :
    strlen m s = ok str.length :=
  strlenLoop_ok h hmax str.length 0 _ (by omega) (by have := h.lt; omega)

/-- `strchr` in terms of the first matching byte of the string. -/
theorem strchrLoop_ok {m : Mem} (c : Int) (hc : c ≠ 0) : ∀ (str : List Byte) (s fuel : Nat), CStr m s str →
    str.length < fuel →
    strchrLoop m c fuel s = ok ((str.findIdx? (fun b => sc b = c)).map (s + ·)) := by
  intro str
  induction str with
  | nil =>
    intro s fuel h hf
    obtain ⟨fuel, rfl⟩ : ∃ f, fuel = f + 1 := ⟨fuel - 1, by omega⟩
    simp [strchrLoop, rd_ok h.nil, hc]
  | cons b str ih =>
    intro s fuel h hf
    obtain ⟨fuel, rfl⟩ : ∃ f, fuel = f + 1 := ⟨fuel - 1, by omega⟩
    simp only [strchrLoop, rd_ok h.head.1, ok_bind]
    rw [if_pos (Or.inl h.head.2), List.findIdx?_cons]
    by_cases hb : c = sc b
    · simp [hb]
    · rw [if_neg hb, if_neg (by simpa using Ne.symm hb), ih (s + 1) fuel h.tail (by simpa using hf)]
      simp only [Option.map_map]
      congr 2; funext x; simp; omega

theorem strchrLoop_zero {m : Mem} : ∀ (str : List Byte) (s fuel : Nat), CStr m s str →
    str.length < fuel → strchrLoop m 0 fuel s = ok (some (s + str.length)) := by
  intro str
  induction str with
  | nil =>
    intro s fuel h hf
    obtain ⟨fuel, rfl⟩ : ∃ f, fuel = f + 1 := ⟨fuel - 1, by omega⟩
    simp [strchrLoop, rd_ok h.nil]
  | cons b str ih =>
    intro s fuel h hf
    obtain ⟨fuel, rfl⟩ : ∃ f, fuel = f + 1 := ⟨fuel - 1, by omega⟩
    have hb : ¬ (0 = sc b) := fun hh => h.head.2 (sc_ne_zero.mp hh.symm)
    simp only [strchrLoop, rd_ok h.head.1, ok_bind]
    rw [if_pos (Or.inl h.head.2), if_neg hb, ih (s + 1) fuel h.tail (by simpa using hf)]
    simp; omega

theorem strchr_zero {m : Mem} {a : Nat} {s : List Byte} (h : CStr m a s) : strchr m a 0 = ok (some (a + s.length)) :=
  strchrLoop_zero s a _ h (by have := h.lt; omega)

theorem strchr_ne {m : Mem} {a : Nat} {s : List Byte} (h : CStr m a s) (c : Int) (hc : c ≠ 0) :
    strchr m a c = ok ((s.findIdx? (fun b => sc b = c)).map (a + ·)) :=
  strchrLoop_ok c hc s a _ h (by have := h.lt; omega)

/-- A C string survives a write outside it. -/
theorem _root_.Mes.Spec.CStr.set {m : Mem} {a : Nat} {s : List Byte} (h : CStr m a s) {p : Nat} (b : Byte)
    (hp : p < a ∨ a + s.length < p) : CStr (m.set p b) a s := by
  refine ⟨fun i hi => ?_, h.2⟩
  have hi' : i < s.length + 1 := by simpa using hi
  rw [List.getElem?_set, if_neg (by omega), h.1 i hi]

/-- `m'` is `m` with the bytes `l` written at `p`. -/
structure Patched (m m' : Mem) (p : Nat) (l : List Byte) : Prop where
  len : m'.length = m.length
  inside : ∀ i, i < l.length → m'[p + i]? = l[i]?
  outside : ∀ i, i < p ∨ p + l.length ≤ i → m'[i]? = m[i]?

theorem Patched.nil (m : Mem) (p : Nat) : Patched m m p [] := ⟨rfl, by simp, fun _ _ => rfl⟩

theorem Patched.cons {m m' : Mem} {p : Nat} {b : Byte} {l : List Byte} (hp : p < m.length)
    (h : Patched (m.set p b) m' (p + 1) l) : Patched m m' p (b :: l) := by
  refine ⟨by simpa using h.len, fun i hi => ?_, fun i hi => ?_⟩
  · cases i with
    | zero => rw [h.outside _ (by omega), getElem?_set' _ _ _ _ hp]; simp
    | succ i =>
      have := h.inside i (by simpa using hi)
      rw [show p + (i + 1) = p + 1 + i by omega, this]; simp
  · simp only [List.length_cons] at hi
    rw [h.outside _ (by omega), getElem?_set' _ _ _ _ hp, if_neg (by omega)]

theorem Patched.append {m m1 m2 : Mem} {p : Nat} {l1 l2 : List Byte} (h1 : Patched m m1 p l1)
    (h2 : Patched m1 m2 (p + l1.length) l2) : Patched m m2 p (l1 ++ l2) := by
  refine ⟨by rw [h2.len, h1.len], fun i hi => ?_, fun i hi => ?_⟩
  · simp only [List.length_append] at hi
    by_cases hl : i < l1.length
    · rw [h2.outside _ (by omega), h1.inside _ hl, List.getElem?_append_left hl]
    · rw [show p + i = p + l1.length + (i - l1.length) by omega, h2.inside _ (by omega),
        List.getElem?_append_right (by omega)]
  · simp only [List.length_append] at hi
    rw [h2.outside _ (by omega), h1.outside _ (by omega)]

theorem Patched.eq_patch {m m' : Mem} {p : Nat} {l : List Byte} (h : Patched m m' p l)
    (hp : p + l.length ≤ m.length) : m' = patch m p l := by
  apply List.ext_getElem?
  intro i
  rw [getElem?_patch m l p i hp]
  by_cases hi : p ≤ i ∧ i < p + l.length
  · rw [if_pos hi, ← h.inside (i - p) (by omega)]; congr 1; omega
  · rw [if_neg hi, h.outside i (by omega)]

/-- The copy loop of `strcpy`/`strcat`. -/
theorem strcpyLoop_ok : ∀ (s : List Byte) (m : Mem) (fuel p src : Nat), CStr m src s → s.length < fuel →
    p + s.length < m.length → (p + s.length < src ∨ src + s.length < p) →
    ∃ m', strcpyLoop m fuel p src = ok m' ∧ Patched m m' p (s ++ [0]) := by
  intro s
  induction s with
  | nil =>
    intro m fuel p src h hf hp _
    obtain ⟨fuel, rfl⟩ : ∃ f, fuel = f + 1 := ⟨fuel - 1, by omega⟩
    have hp : p < m.length := hp
    exact ⟨m.set p 0, by simp [strcpyLoop, rd_ok h.nil, wr_ok _ hp], .cons hp (.nil _ _)⟩
  | cons b s ih =>
    intro m fuel p src h hf hp hov
    obtain ⟨fuel, rfl⟩ : ∃ f, fuel = f + 1 := ⟨fuel - 1, by omega⟩
    simp only [List.length_cons] at hf hp hov
    have hpl : p < m.length := by omega
    have htl : CStr (m.set p b) (src + 1) s := h.tail.set b (by omega)
    obtain ⟨m', h1, h2⟩ := ih (m.set p b) fuel (p + 1) (src + 1) htl (by omega) (by simp; omega) (by omega)
    exact ⟨m', by simp [strcpyLoop, rd_ok h.head.1, h.head.2, wr_ok _ hpl, h1], .cons hpl h2⟩

/-- The first loop of `strncpy`. -/
theorem strncpyCopy_ok : ∀ (n : Nat) (s : List Byte) (m : Mem) (p src : Nat), CStr m src s →
    p + n ≤ m.length → (p + n ≤ src ∨ src + s.length < p) →
    ∃ m' p' f left, strncpyCopy m n p src = ok (m', p', f, left) ∧ p' = p + (s.take n).length ∧
      Patched m m' p (s.take n) ∧
      (if s.length ≤ n then m'[f]? = some 0 ∧ left = some (n - s.length)
       else (∃ b, m'[f]? = some b ∧ b ≠ 0) ∧ left = none) := by
  intro n
  induction n with
  | zero =>
    intro s m p src h _ _
    cases s with
    | nil =>
      refine ⟨m, p, src, some 0, by simp [strncpyCopy, rd_ok h.nil], by simp, .nil _ _, ?_⟩
      simp [h.nil]
    | cons b s =>
      refine ⟨m, p, src, none, by simp [strncpyCopy, rd_ok h.head.1, h.head.2], by simp, .nil _ _, ?_⟩
      simp [h.head.1, h.head.2]
  | succ n ih =>
    intro s m p src h hp hov
    cases s with
    | nil =>
      refine ⟨m, p, src, some (n + 1), by simp [strncpyCopy, rd_ok h.nil], by simp, .nil _ _, ?_⟩
      simp [h.nil]
    | cons b s =>
      simp only [List.length_cons] at hov
      have hpl : p < m.length := by omega
      have htl : CStr (m.set p b) (src + 1) s := h.tail.set b (by omega)
      obtain ⟨m', p', f, left, h1, h2, h3, h5⟩ :=
        ih s (m.set p b) (p + 1) (src + 1) htl (by simp; omega) (by omega)
      refine ⟨m', p', f, left, ?_, ?_, .cons hpl h3, ?_⟩
      · simp [strncpyCopy, rd_ok h.head.1, h.head.2, wr_ok _ hpl, h1]
      · simp [h2]; omega
      · simpa using h5

/-- The copy loop of `strncat`. -/
theorem strncatLoop_ok : ∀ (n : Nat) (s : List Byte) (m : Mem) (p src : Nat), CStr m src s →
    p + (s.take n).length < m.length → (p + (s.take n).length < src ∨ src + s.length < p) →
    ∃ m', strncatLoop m n p src = ok m' ∧ Patched m m' p (s.take n ++ [0]) := by
  intro n
  induction n with
  | zero =>
    intro s m p src h hp hov
    have hp' : p < m.length := by rw [List.take_zero] at hp; exact hp
    clear hp hov
    refine ⟨m.set p 0, ?_, .cons hp' (.nil _ _)⟩
    cases s with
    | nil => simp only [strncatLoop, rd_ok h.nil, wr_ok 0 hp', ok_bind]
    | cons b s => simp only [strncatLoop, rd_ok h.head.1, wr_ok 0 hp', ok_bind]
  | succ n ih =>
    intro s m p src h hp hov
    cases s with
    | nil =>
      have hp : p < m.length := hp
      exact ⟨m.set p 0, by simp [strncatLoop, rd_ok h.nil, wr_ok _ hp], .cons hp (.nil _ _)⟩
    | cons b s =>
      simp only [List.take_succ_cons, List.length_cons] at hp hov
      have hpl : p < m.length := by omega
      have htl : CStr (m.set p b) (src + 1) s := h.tail.set b (by omega)
      obtain ⟨m', h1, h2⟩ := ih s (m.set p b) (p + 1) (src + 1) htl (by rw [List.length_set]; omega) (by omega)
      exact ⟨m', by simp [strncatLoop, rd_ok h.head.1, h.head.2, wr_ok _ hpl, h1], .cons hpl h2⟩

/-! ### comparison -/

/-- The sign of the difference returned by the comparison loops, for byte lists ended by NUL. -/
theorem strcmpLoop_ok {m : Mem} : ∀ (s t : List Byte) (fuel a b : Nat), CStr m a s → CStr m b t → s.length < fuel →
    ∃ r, strcmpLoop m fuel a b = ok r ∧ (r = 0 ↔ s = t) ∧
      (r < 0 ↔ (s.map sc ++ [0]) < (t.map sc ++ [0])) := by
  intro s
  induction s with
  | nil =>
    intro t fuel a b hs ht hf
    obtain ⟨fuel, rfl⟩ : ∃ f, fuel = f + 1 := ⟨fuel - 1, by omega⟩
    cases t with
    | nil => exact ⟨0, by simp [strcmpLoop, rd_ok hs.nil, rd_ok ht.nil], by simp, by simp⟩
    | cons c t =>
      have := ht.head.2
      refine ⟨0 - sc c, by simp [strcmpLoop, rd_ok hs.nil, rd_ok ht.head.1], ?_, ?_⟩
      · have := mt sc_ne_zero.mp this; simp; omega
      · have := mt sc_ne_zero.mp this
        simp only [List.map_nil, List.nil_append, List.map_cons, List.cons_append, List.cons_lt_cons_iff]
        constructor
        · intro; left; omega
        · rintro (h | ⟨h, _⟩) <;> omega
  | cons x s ih =>
    intro t fuel a b hs ht hf
    obtain ⟨fuel, rfl⟩ : ∃ f, fuel = f + 1 := ⟨fuel - 1, by omega⟩
    have hx := mt sc_ne_zero.mp hs.head.2
    cases t with
    | nil =>
      refine ⟨sc x - 0, by simp [strcmpLoop, rd_ok hs.head.1, rd_ok ht.nil], by simp; omega, ?_⟩
      simp only [List.map_nil, List.nil_append, List.map_cons, List.cons_append, List.cons_lt_cons_iff]
      constructor
      · intro; left; omega
      · rintro (h | ⟨h, _⟩) <;> omega
    | cons y t =>
      have hy := mt sc_ne_zero.mp ht.head.2
      by_cases hxy : x = y
      · subst hxy
        obtain ⟨r, h1, h2, h3⟩ := ih t fuel (a + 1) (b + 1) hs.tail ht.tail (by simpa using hf)
        refine ⟨r, by simp [strcmpLoop, rd_ok hs.head.1, rd_ok ht.head.1, hs.head.2, h1], by simp [h2], ?_⟩
        rw [h3]
        simp
      · have hne : sc x ≠ sc y := fun h => hxy (sc_inj h)
        refine ⟨sc x - sc y, by simp [strcmpLoop, rd_ok hs.head.1, rd_ok ht.head.1, hxy], ?_, ?_⟩
        · simp [hxy]; omega
        · simp only [List.map_cons, List.cons_append, List.cons_lt_cons_iff]
          constructor
          · intro; left; omega
          · rintro (h | ⟨h, _⟩) <;> omega

theorem strncmpLoop_ok {m : Mem} : ∀ (n : Nat) (s t : List Byte) (a b : Nat), CStr m a s → CStr m b t →
    ∃ r, strncmpLoop m n a b = ok r ∧ (r = 0 ↔ s.take (n + 1) = t.take (n + 1)) ∧
      (r < 0 ↔ ((s.map sc ++ [0]).take (n + 1)) < ((t.map sc ++ [0]).take (n + 1))) := by
  intro n
  induction n with
  | zero =>
    intro s t a b hs ht
    cases s with
    | nil =>
      cases t with
      | nil => exact ⟨0, by simp [strncmpLoop, rd_ok hs.nil, rd_ok ht.nil], by simp, by simp⟩
      | cons c t =>
        have := mt sc_ne_zero.mp ht.head.2
        refine ⟨0 - sc c, by simp [strncmpLoop, rd_ok hs.nil, rd_ok ht.head.1], by simp; omega, ?_⟩
        simp [List.cons_lt_cons_iff]
    | cons x s =>
      have hx := mt sc_ne_zero.mp hs.head.2
      cases t with
      | nil =>
        refine ⟨sc x - 0, by simp [strncmpLoop, rd_ok hs.head.1, rd_ok ht.nil], by simp; omega, ?_⟩
        simp [List.cons_lt_cons_iff]
      | cons y t =>
        refine ⟨sc x - sc y, by simp [strncmpLoop, rd_ok hs.head.1, rd_ok ht.head.1], ?_, ?_⟩
        · simp only [List.take_succ_cons, List.take_zero, List.cons.injEq, and_true, ← sc_eq_iff (a := x)]; omega
        · simp [List.cons_lt_cons_iff]; omega
  | succ n ih =>
    intro s t a b hs ht
    cases s with
    | nil =>
      cases t with
      | nil => exact ⟨0, by simp [strncmpLoop, rd_ok hs.nil, rd_ok ht.nil], by simp, by simp⟩
      | cons c t =>
        have := mt sc_ne_zero.mp ht.head.2
        refine ⟨0 - sc c, by simp [strncmpLoop, rd_ok hs.nil, rd_ok ht.head.1], by simp; omega, ?_⟩
        simp [List.cons_lt_cons_iff, List.take_succ_cons]
        try omega
    | cons x s =>
      have hx := mt sc_ne_zero.mp hs.head.2
      cases t with
      | nil =>
        refine ⟨sc x - 0, by simp [strncmpLoop, rd_ok hs.head.1, rd_ok ht.nil], by simp; omega, ?_⟩
        simp [List.cons_lt_cons_iff, List.take_succ_cons]
        try omega
      | cons y t =>
        by_cases hxy : x = y
        · subst hxy
          obtain ⟨r, h1, h2, h3⟩ := ih s t (a + 1) (b + 1) hs.tail ht.tail
          refine ⟨r, by simp [strncmpLoop, rd_ok hs.head.1, rd_ok ht.head.1, hs.head.2, h1], ?_, ?_⟩
          · rw [h2]; simp
          · rw [h3, List.map_cons, List.map_cons, List.cons_append, List.cons_append, List.take_succ_cons (i := n + 1),
              List.take_succ_cons (i := n + 1), List.cons_lt_cons_iff]
            constructor
            · intro h; right; exact ⟨rfl, h⟩
            · rintro (h | ⟨_, h⟩)
              · omega
              · exact h
        · have hne : sc x ≠ sc y := fun h => hxy (sc_inj h)
          refine ⟨sc x - sc y, by simp [strncmpLoop, rd_ok hs.head.1, rd_ok ht.head.1, hxy], ?_, ?_⟩
          · simp [hxy]; omega
          · rw [List.map_cons, List.map_cons, List.cons_append, List.cons_append, List.take_succ_cons (i := n + 1),
              List.take_succ_cons (i := n + 1), List.cons_lt_cons_iff]
            constructor
            · intro; left; omega
            · rintro (h | ⟨h, _⟩) <;> omega

theorem _root_.Mes.Spec.At.head {m : Mem} {a : Nat} {b : Byte} {l : List Byte} (h : At m a (b :: l)) :
    m[a]? = some b := by simpa using h 0 (by simp)

theorem _root_.Mes.Spec.At.tail {m : Mem} {a : Nat} {b : Byte} {l : List Byte} (h : At m a (b :: l)) :
    At m (a + 1) l := by
  intro i hi
  have := h (i + 1) (by simpa using hi)
  rw [show a + 1 + i = a + (i + 1) by omega, this]; simp

theorem memcmpLoop_ok {m : Mem} : ∀ (n : Nat) (s t : List Byte) (a b : Nat), At m a s → At m b t →
    s.length = n + 1 → t.length = n + 1 →
    ∃ r, memcmpLoop m n a b = ok r ∧ (r = 0 ↔ s = t) ∧ (r < 0 ↔ s.map sc < t.map sc) := by
  intro n
  induction n with
  | zero =>
    intro s t a b hs ht hsl htl
    match s, t, hsl, htl with
    | [x], [y], _, _ =>
      refine ⟨sc x - sc y, by simp [memcmpLoop, rd_ok hs.head, rd_ok ht.head], ?_, ?_⟩
      · simp only [List.cons.injEq, and_true, ← sc_eq_iff (a := x)]; omega
      · simp [List.cons_lt_cons_iff]; omega
  | succ n ih =>
    intro s t a b hs ht hsl htl
    match s, t, hsl, htl with
    | x :: s, y :: t, hsl, htl =>
      by_cases hxy : x = y
      · subst hxy
        obtain ⟨r, h1, h2, h3⟩ := ih s t (a + 1) (b + 1) hs.tail ht.tail (by simpa using hsl) (by simpa using htl)
        refine ⟨r, by simp [memcmpLoop, rd_ok hs.head, rd_ok ht.head, h1], by simp [h2], ?_⟩
        rw [h3]
        simp
      · have hne : sc x ≠ sc y := fun h => hxy (sc_inj h)
        refine ⟨sc x - sc y, by simp [memcmpLoop, rd_ok hs.head, rd_ok ht.head, hxy], ?_, ?_⟩
        · simp [hxy]; omega
        · simp only [List.map_cons, List.cons_lt_cons_iff]
          constructor
          · intro; left; omega
          · rintro (h | ⟨h, _⟩) <;> omega

/-! ### searching -/

theorem memchr_ok {m : Mem} (c : Int) : ∀ (l : List Byte) (p : Nat), At m p l →
    memchr m p c l.length = ok ((l.findIdx? (fun b => sc b = c)).map (p + ·)) := by
  intro l
  induction l with
  | nil => intro p _; simp [memchr]
  | cons b l ih =>
    intro p h
    simp only [List.length_cons, memchr, rd_ok h.head, ok_bind]
    rw [List.findIdx?_cons]
    by_cases hb : c = sc b
    · simp [hb]
    · rw [if_neg hb, if_neg (by simpa using Ne.symm hb), ih (p + 1) h.tail]
      simp only [Option.map_map]
      congr 2; funext x; simp; omega

/-- Invariant of the backward loop of `strrchr` for a string without NULs in the first `n` places. -/
theorem strrchrLoop_ok {m : Mem} {s : Nat} {str : List Byte} (h : CStr m s str) (c : Int) :
    ∀ n, n ≤ str.length →
    (∃ i, i < n ∧ strrchrLoop m s c n = ok (some (s + i)) ∧ (∃ b, str[i]? = some b ∧ sc b = c) ∧
        ∀ j b, i < j → j < n → str[j]? = some b → sc b ≠ c) ∨
    (strrchrLoop m s c n = ok none ∧ ∀ (j : Nat) b, j < n → str[j]? = some b → sc b ≠ c) := by
  intro n
  induction n with
  | zero => intro _; right; exact ⟨rfl, fun j b hj => by omega⟩
  | succ n ih =>
    intro hn
    have hlt : n < str.length := by omega
    have hb : str[n]? = some str[n] := List.getElem?_eq_getElem hlt
    have hun : strrchrLoop m s c (n + 1) = if c = sc str[n] then ok (some (s + n)) else strrchrLoop m s c n := by
      simp [strrchrLoop, rd_ok (h.rd_lt hlt), h.ne hlt]
    by_cases hc : c = sc str[n]
    · left
      refine ⟨n, by omega, by rw [hun, if_pos hc], ⟨_, hb, hc.symm⟩, fun j b _ _ => by omega⟩
    · rw [hun, if_neg hc]
      have key : ∀ (j : Nat) b, j = n → str[j]? = some b → sc b ≠ c := by
        rintro j b rfl hjb
        rw [hb] at hjb
        cases hjb
        exact fun h => hc h.symm
      rcases ih (by omega) with ⟨i, h1, h2, h3, h4⟩ | ⟨h1, h2⟩
      · left
        refine ⟨i, by omega, h2, h3, fun j b hij hj hjb => ?_⟩
        by_cases hjn : j = n
        · exact key j b hjn hjb
        · exact h4 j b hij (by omega) hjb
      · right
        refine ⟨h1, fun j b hj hjb => ?_⟩
        by_cases hjn : j = n
        · exact key j b hjn hjb
        · exact h2 j b (by omega) hjb

theorem spanLoop_ok {m : Mem} (inSet : Bool) {set : Nat} {t : List Byte} (ht : CStr m set t) :
    ∀ (s : List Byte) (fuel p : Nat), CStr m p s → s.length < fuel →
    spanLoop m inSet set fuel p = ok (p + (s.takeWhile (fun b => decide (b ∈ t) = inSet)).length) := by
  intro s
  induction s with
  | nil =>
    intro fuel p h hf
    obtain ⟨fuel, rfl⟩ : ∃ f, fuel = f + 1 := ⟨fuel - 1, by omega⟩
    simp [spanLoop, rd_ok h.nil]
  | cons b s ih =>
    intro fuel p h hf
    obtain ⟨fuel, rfl⟩ : ∃ f, fuel = f + 1 := ⟨fuel - 1, by omega⟩
    have hsc : sc b ≠ 0 := mt sc_ne_zero.mp h.head.2
    have hfound : ((t.findIdx? (fun b' => decide (sc b' = sc b))).map (set + ·)).isSome = decide (b ∈ t) := by
      rw [Bool.eq_iff_iff]
      simp [List.findIdx?_isSome, sc_eq_iff]
    simp only [spanLoop, rd_ok h.head.1, ok_bind, if_neg h.head.2, strchr_ne ht _ hsc, hfound]
    rw [List.takeWhile_cons]
    by_cases hb : decide (b ∈ t) = inSet
    · rw [if_pos hb, if_pos (by simpa using hb), ih fuel (p + 1) h.tail (by simpa using hf)]
      simp; omega
    · rw [if_neg hb, if_neg (by simpa using hb)]; simp

theorem memmemMatch_ok {m : Mem} : ∀ (n s : List Byte) (a b : Nat), At m a n → At m b s → n.length ≤ s.length →
    memmemMatch m n.length a b = ok (n.isPrefixOf s) := by
  intro n
  induction n with
  | nil => intro s a b _ _ _; simp [memmemMatch]
  | cons x n ih =>
    intro s a b hn hs hl
    match s, hl with
    | y :: s, hl =>
      simp only [List.length_cons, memmemMatch, rd_ok hn.head, rd_ok hs.head, ok_bind]
      by_cases hxy : x = y
      · subst hxy
        rw [if_neg (by simp), ih s _ _ hn.tail hs.tail (by simpa using hl)]
        simp [List.isPrefixOf]
      · rw [if_pos hxy]
        simp [List.isPrefixOf, hxy]

theorem _root_.Mes.Spec.At.drop {m : Mem} {a : Nat} {l : List Byte} (h : At m a l) (k : Nat) :
    At m (a + k) (l.drop k) := by
  intro i hi
  simp only [List.length_drop] at hi
  rw [List.getElem?_drop, Nat.add_assoc, h (k + i) (by omega)]

theorem memmemLoop_ok {m : Mem} {needle : Nat} {n : List Byte} (hn : At m needle n) :
    ∀ (left : Nat) (s : List Byte) (hay : Nat), At m hay s → left + n.length = s.length + 1 →
    memmemLoop m needle n.length left hay =
      ok (((List.range left).find? (fun i => n.isPrefixOf (s.drop i))).map (hay + ·)) := by
  intro left
  induction left with
  | zero => intro s hay _ _; simp [memmemLoop]
  | succ left ih =>
    intro s hay hs hl
    simp only [memmemLoop, memmemMatch_ok n s needle hay hn hs (by omega), ok_bind]
    rw [List.range_succ_eq_map, List.find?_cons]
    by_cases hp : n.isPrefixOf s
    · simp [hp]
    · have hp' : n.isPrefixOf (s.drop 0) = false := by rw [List.drop_zero]; exact Bool.eq_false_iff.mpr hp
      rw [if_neg hp, hp']
      simp only [List.find?_map, Option.map_map]
      cases s with
      | nil =>
        simp only [List.length_nil] at hl
        have h0 : left = 0 := by
          cases n with
          | nil => simp at hp
          | cons => simp at hl; omega
        subst h0
        simp [memmemLoop]
      | cons y s =>
        rw [ih s (hay + 1) hs.tail (by simp at hl; omega)]
        have : ((fun i => n.isPrefixOf (List.drop i (y :: s))) ∘ Nat.succ) = (fun i => n.isPrefixOf (List.drop i s)) := by
          funext i; simp
        rw [this]
        congr 2
        funext x; simp; omega

end Mes.C
