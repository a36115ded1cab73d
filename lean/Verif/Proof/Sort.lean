import Verif.Model.CSort
import Verif.Spec.Sorting
import Verif.Proof.Bytes
/-
Lemmas about qsort.
-/
namespace Mes.C
open Res Spec

variable {m m' m'' : Mem} {base size n i j : Nat} {xs ys : List (List Byte)} {compare : Compare}

theorem rd_of {a : Nat} {b : Byte} (h : m[a]? = some b) : m.rd a = ok b := by unfold Mem.rd; rw [h]; rfl

/-! ### Elements -/

theorem element_ok : ∀ (size : Nat) {a : Nat} {x : List Byte}, x.length = size → (∀ r, r < size → m[a + r]? = x[r]?) → element m size a = ok x
  | 0, a, x, hx, _ => by rw [List.length_eq_zero_iff.1 hx]; rfl
  | size + 1, a, [], hx, _ => by cases hx
  | size + 1, a, b :: x, hx, h => by
    simp only [List.length_cons, Nat.add_right_cancel_iff] at hx
    have h0 := h 0 (by omega)
    simp only [Nat.add_zero, List.getElem?_cons_zero] at h0
    simp only [element, rd_of h0, ok_bind]
    rw [element_ok size hx fun r hr => by
      have := h (r + 1) (by omega)
      rw [List.getElem?_cons_succ] at this
      rw [← this]; congr 1; omega]
    rfl

theorem _root_.Mes.Spec.Elements.element_ok (h : Elements m base size xs) {k : Nat} {x : List Byte} (hk : xs[k]? = some x) :
    element m size (base + k * size) = ok x :=
  C.element_ok size (h.sizes x (List.mem_of_getElem? hk)) (h.bytes k x hk)

theorem mul_step {k i size : Nat} (h : k < i) : k * size + size ≤ i * size := by
  have := Nat.mul_le_mul_right size (Nat.succ_le_of_lt h)
  rw [Nat.succ_mul] at this
  exact this

theorem _root_.Mes.Spec.Elements.inside (h : Elements m base size xs) (hs : 0 < size) {k : Nat} {x : List Byte} (hk : xs[k]? = some x) :
    base + k * size + size ≤ m.length := by
  have hl := h.sizes x (List.mem_of_getElem? hk)
  have := h.bytes k x hk (size - 1) (by omega)
  rw [List.getElem?_eq_getElem (by omega : size - 1 < x.length)] at this
  have := (List.getElem?_eq_some_iff.1 this).1
  omega

theorem _root_.Mes.Spec.Elements.take (h : Elements m base size xs) (i : Nat) : Elements m base size (xs.take i) :=
  ⟨fun x hx => h.sizes x (List.mem_of_mem_take hx), fun k x hk => by
    rw [List.getElem?_take] at hk
    split at hk
    · exact h.bytes k x hk
    · cases hk⟩

theorem _root_.Mes.Spec.Elements.drop (h : Elements m base size xs) (i : Nat) : Elements m (base + i * size) size (xs.drop i) :=
  ⟨fun x hx => h.sizes x (List.mem_of_mem_drop hx), fun k x hk r hr => by
    rw [List.getElem?_drop] at hk
    have := h.bytes _ x hk r hr
    rw [← this, Nat.add_mul]; congr 1; omega⟩

theorem _root_.Mes.Spec.Elements.append (h : Elements m base size xs) (h' : Elements m (base + xs.length * size) size ys) : Elements m base size (xs ++ ys) := by
  refine ⟨fun x hx => (List.mem_append.1 hx).elim (h.sizes x) (h'.sizes x), fun k x hk r hr => ?_⟩
  by_cases hl : k < xs.length
  · rw [List.getElem?_append_left hl] at hk; exact h.bytes k x hk r hr
  · rw [List.getElem?_append_right (by omega)] at hk
    have := h'.bytes _ x hk r hr
    rw [← this]; congr 1
    have : k * size = xs.length * size + (k - xs.length) * size := by rw [← Nat.add_mul]; congr 1; omega
    omega

theorem _root_.Mes.Spec.Elements.outside {b k : Nat} (h : Elements m base size xs) (ho : OnlyIn b k m m') (hd : base + xs.length * size ≤ b ∨ b + k ≤ base) :
    Elements m' base size xs := by
  refine ⟨h.sizes, fun i x hi r hr => ?_⟩
  rw [← h.bytes i x hi r hr]
  have : i < xs.length := (List.getElem?_eq_some_iff.1 hi).1
  have := mul_step (size := size) this
  exact ho.2 _ (by omega)

theorem _root_.Mes.Spec.OnlyIn.refl (b k : Nat) (m : Mem) : OnlyIn b k m m := ⟨rfl, fun _ _ => rfl⟩

theorem _root_.Mes.Spec.OnlyIn.trans {b k : Nat} (h : OnlyIn b k m m') (h' : OnlyIn b k m' m'') : OnlyIn b k m m'' :=
  ⟨h'.1.trans h.1, fun a ha => (h'.2 a ha).trans (h.2 a ha)⟩

theorem _root_.Mes.Spec.OnlyIn.mono {b k b' k' : Nat} (h : OnlyIn b k m m') (hb : b' ≤ b) (hk : b + k ≤ b' + k') : OnlyIn b' k' m m' :=
  ⟨h.1, fun a ha => h.2 a (by omega)⟩

/-! ### Exchanging two elements -/

theorem qswapLoop_ok : ∀ (n : Nat) {m : Mem} {a b : Nat}, a + n ≤ m.length → b + n ≤ m.length → (a = b ∨ a + n ≤ b ∨ b + n ≤ a) →
    ∃ m', qswapLoop n m a b = ok m' ∧ m'.length = m.length ∧
      ∀ c, m'[c]? = if a ≤ c ∧ c < a + n then m[c - a + b]? else if b ≤ c ∧ c < b + n then m[c - b + a]? else m[c]?
  | 0, m, a, b, _, _, _ => ⟨m, rfl, rfl, fun c => by rw [if_neg (by omega), if_neg (by omega)]⟩
  | n + 1, m, a, b, ha, hb, hd => by
    have h1 : a < m.length := by omega
    have h2 : b < m.length := by omega
    obtain ⟨m', e1, e2, e3⟩ := qswapLoop_ok n (m := (m.set a m[b]).set b m[a]) (a := a + 1) (b := b + 1) (by simp; omega) (by simp; omega) (by omega)
    refine ⟨m', ?_, by simpa using e2, fun c => ?_⟩
    · simp only [qswapLoop, rd_of (List.getElem?_eq_getElem h1), rd_of (List.getElem?_eq_getElem h2), ok_bind, Mem.wr, List.length_set, h1, h2, if_true]
      exact e1
    · have g : ∀ d, ((m.set a m[b]).set b m[a])[d]? = if d = b then m[a]? else if d = a then m[b]? else m[d]? := by
        intro d
        simp only [List.getElem?_set, List.length_set, List.getElem?_eq_getElem h1, List.getElem?_eq_getElem h2, h1, h2, if_true, eq_comm]
      rw [e3]
      by_cases ca : c = a
      · subst ca
        rw [if_neg (by omega), if_neg (by omega), g, if_pos (show c ≤ c ∧ c < c + (n + 1) by omega), if_pos (rfl : c = c)]
        by_cases cb : c = b
        · rw [if_pos cb, Nat.sub_self, Nat.zero_add, cb]
        · rw [if_neg cb, Nat.sub_self, Nat.zero_add]
      · by_cases cb : c = b
        · subst cb
          rw [if_neg (by omega), if_neg (by omega), g, if_pos (rfl : c = c), if_neg (show ¬ (a ≤ c ∧ c < a + (n + 1)) by omega),
            if_pos (show c ≤ c ∧ c < c + (n + 1) by omega), Nat.sub_self, Nat.zero_add]
        · by_cases r1 : a + 1 ≤ c ∧ c < a + 1 + n
          · rw [if_pos r1, if_pos (show a ≤ c ∧ c < a + (n + 1) by omega), g, if_neg (by omega)]
            have e : c - (a + 1) + (b + 1) = c - a + b := by omega
            rw [e]
            by_cases ab : a = b
            · subst ab; rw [if_neg (by omega)]
            · rw [if_neg (by omega)]
          · rw [if_neg r1, if_neg (show ¬ (a ≤ c ∧ c < a + (n + 1)) by omega)]
            by_cases r2 : b + 1 ≤ c ∧ c < b + 1 + n
            · have e : c - (b + 1) + (a + 1) = c - b + a := by omega
              rw [if_pos r2, if_pos (show b ≤ c ∧ c < b + (n + 1) by omega), g, e, if_neg (by omega), if_neg (by omega)]
            · rw [if_neg r2, if_neg (show ¬ (b ≤ c ∧ c < b + (n + 1)) by omega), g, if_neg cb, if_neg ca]

/-- Exchange two elements of a list. -/
def swapL {α : Type} (xs : List α) (i j : Nat) : List α :=
  match xs[i]?, xs[j]? with
  | some a, some b => (xs.set i b).set j a
  | _, _ => xs

theorem length_swapL {α : Type} (xs : List α) (i j : Nat) : (swapL xs i j).length = xs.length := by
  unfold swapL; split <;> simp

theorem getElem?_swapL {α : Type} (xs : List α) {i j : Nat} (hi : i < xs.length) (hj : j < xs.length) (k : Nat) :
    (swapL xs i j)[k]? = if k = i then xs[j]? else if k = j then xs[i]? else xs[k]? := by
  unfold swapL
  simp only [List.getElem?_eq_getElem hi, List.getElem?_eq_getElem hj, List.getElem?_set, List.length_set]
  by_cases h1 : k = i
  · subst h1
    by_cases h2 : j = k
    · subst h2; simp [hi]
    · simp [hi, h2]
  · by_cases h2 : k = j
    · subst h2; simp [hj, h1]
    · simp [h1, h2, Ne.symm h1, Ne.symm h2]

theorem swapL_perm {α : Type} (xs : List α) (i j : Nat) : (swapL xs i j).Perm xs := by
  by_cases hi : i < xs.length
  · by_cases hj : j < xs.length
    · have h := Array.swap_perm (xs := xs.toArray) (i := i) (j := j) (by simpa using hi) (by simpa using hj)
      have e : (xs.toArray.swap i j (by simpa using hi) (by simpa using hj)).toList = swapL xs i j := by
        unfold swapL
        simp [List.getElem?_eq_getElem hi, List.getElem?_eq_getElem hj, Array.swap]
      rw [← e]
      exact h.toList
    · unfold swapL; simp [List.getElem?_eq_none (Nat.le_of_not_lt hj)]
  · unfold swapL; simp [List.getElem?_eq_none (Nat.le_of_not_lt hi)]

theorem qswap_ok (h : Elements m base size xs) (hs : 0 < size) (hi : i < xs.length) (hj : j < xs.length) :
    ∃ m', qswap m (base + i * size) (base + j * size) size = ok m' ∧ Elements m' base size (swapL xs i j) ∧ OnlyIn base (xs.length * size) m m' := by
  have i1 := h.inside hs (List.getElem?_eq_getElem hi)
  have j1 := h.inside hs (List.getElem?_eq_getElem hj)
  have i2 := mul_step (size := size) hi
  have j2 := mul_step (size := size) hj
  have hd : base + i * size = base + j * size ∨ base + i * size + size ≤ base + j * size ∨ base + j * size + size ≤ base + i * size := by
    rcases Nat.lt_trichotomy i j with hh | hh | hh
    · have := mul_step (size := size) hh; omega
    · subst hh; exact .inl rfl
    · have := mul_step (size := size) hh; omega
  obtain ⟨m', e1, e2, e3⟩ := qswapLoop_ok size i1 j1 hd
  refine ⟨m', by unfold qswap; rw [if_neg (by omega)]; exact e1, ⟨fun x hx => h.sizes x ((swapL_perm xs i j).mem_iff.1 hx), fun k x hk r hr => ?_⟩, e2, fun a ha => ?_⟩
  · rw [getElem?_swapL xs hi hj] at hk
    rw [e3]
    by_cases ki : k = i
    · subst ki
      rw [if_pos rfl] at hk
      rw [if_pos (by omega), ← h.bytes j x hk r hr]
      congr 1; omega
    · rw [if_neg ki] at hk
      have n1 : ¬ (base + i * size ≤ base + k * size + r ∧ base + k * size + r < base + i * size + size) := by
        rcases Nat.lt_or_gt_of_ne ki with hh | hh
        · have := mul_step (size := size) hh; omega
        · have := mul_step (size := size) hh; omega
      rw [if_neg n1]
      by_cases kj : k = j
      · subst kj
        rw [if_pos rfl] at hk
        rw [if_pos (by omega), ← h.bytes i x hk r hr]
        congr 1; omega
      · rw [if_neg kj] at hk
        have n2 : ¬ (base + j * size ≤ base + k * size + r ∧ base + k * size + r < base + j * size + size) := by
          rcases Nat.lt_or_gt_of_ne kj with hh | hh
          · have := mul_step (size := size) hh; omega
          · have := mul_step (size := size) hh; omega
        rw [if_neg n2]
        exact h.bytes k x hk r hr
  · rw [e3, if_neg (by omega), if_neg (by omega)]

/-! ### The loop of qpart, on lists -/

def partL (compare : Compare) (p : List Byte) : (n : Nat) → (xs : List (List Byte)) → (i j : Nat) → List (List Byte) × Nat
  | 0, xs, i, _ => (xs, i)
  | n + 1, xs, i, j =>
    match xs[j]? with
    | none => (xs, i)
    | some x =>
      if compare x p < 0 then partL compare p n (swapL xs i j) (i + 1) (j + 1)
      else if compare x p = 0 then partL compare p n xs (i + 1) (j + 1)
      else partL compare p n xs i (j + 1)

theorem qpartLoop_ok (hs : 0 < size) {count : Nat} {p : List Byte} : ∀ (n : Nat) {m : Mem} {xs : List (List Byte)} {i j : Nat},
    Elements m base size xs → i ≤ j → j + n = count → xs.length = count + 1 → xs[count]? = some p →
    ∃ m', qpartLoop compare base size (base + count * size) n m i j = ok (m', (partL compare p n xs i j).2) ∧
      Elements m' base size (partL compare p n xs i j).1 ∧ OnlyIn base (xs.length * size) m m'
  | 0, m, xs, i, j, h, _, _, _, _ => ⟨m, rfl, h, .refl _ _ _⟩
  | n + 1, m, xs, i, j, h, hij, hn, hl, hp => by
    have hj : j < xs.length := by omega
    have e1 := h.element_ok (List.getElem?_eq_getElem hj)
    have e2 := h.element_ok hp
    unfold qpartLoop partL
    simp only [e1, e2, ok_bind, List.getElem?_eq_getElem hj]
    by_cases c1 : compare xs[j] p < 0
    · rw [if_pos c1, if_pos c1]
      obtain ⟨m', e3, e4, e5⟩ := qswap_ok h hs (by omega : i < xs.length) hj
      simp only [e3, ok_bind]
      have hp' : (swapL xs i j)[count]? = some p := by
        rw [getElem?_swapL xs (by omega) hj, if_neg (by omega), if_neg (by omega), hp]
      obtain ⟨m'', e6, e7, e8⟩ := qpartLoop_ok hs n (i := i + 1) (j := j + 1) e4 (by omega) (by omega) (by rw [length_swapL]; exact hl) hp'
      rw [length_swapL] at e8
      exact ⟨m'', e6, e7, e5.trans e8⟩
    · rw [if_neg c1, if_neg c1]
      by_cases c2 : compare xs[j] p = 0
      · rw [if_pos c2, if_pos c2]
        exact qpartLoop_ok hs n h (by omega) (by omega) hl hp
      · rw [if_neg c2, if_neg c2]
        exact qpartLoop_ok hs n h (by omega) (by omega) hl hp

theorem partL_perm (p : List Byte) : ∀ (n : Nat) (xs : List (List Byte)) (i j : Nat), (partL compare p n xs i j).1.Perm xs
  | 0, xs, _, _ => .refl _
  | n + 1, xs, i, j => by
    unfold partL
    split
    · exact .refl _
    · split
      · exact (partL_perm p n _ _ _).trans (swapL_perm xs i j)
      · split <;> exact partL_perm p n _ _ _

theorem partL_le (p : List Byte) : ∀ (n : Nat) (xs : List (List Byte)) (i j : Nat), i ≤ (partL compare p n xs i j).2 ∧ (partL compare p n xs i j).2 ≤ i + n
  | 0, xs, _, _ => ⟨Nat.le_refl _, Nat.le_refl _⟩
  | n + 1, xs, i, j => by
    unfold partL
    split
    · exact ⟨Nat.le_refl _, by omega⟩
    · split
      · have := partL_le p n (swapL xs i j) (i + 1) (j + 1); omega
      · split
        · have := partL_le p n xs (i + 1) (j + 1); omega
        · have := partL_le p n xs i (j + 1); omega

/-- The last element stays. -/
theorem partL_last (p : List Byte) : ∀ (n : Nat) {xs : List (List Byte)} {i j : Nat}, i ≤ j → j + n < xs.length → ∀ k, j + n ≤ k →
    (partL compare p n xs i j).1[k]? = xs[k]?
  | 0, xs, _, _, _, _, _, _ => rfl
  | n + 1, xs, i, j, hij, hn, k, hk => by
    unfold partL
    have hj : j < xs.length := by omega
    simp only [List.getElem?_eq_getElem hj]
    split
    · rw [partL_last p n (by omega) (by rw [length_swapL]; omega) k (by omega), getElem?_swapL xs (by omega) hj, if_neg (by omega), if_neg (by omega)]
    · split
      · exact partL_last p n (by omega) (by omega) k (by omega)
      · exact partL_last p n (by omega) (by omega) k (by omega)

/-- When no element is at most the pivot, nothing changes. -/
theorem partL_zero (p : List Byte) : ∀ (n : Nat) {xs : List (List Byte)} {j : Nat}, j + n < xs.length → (partL compare p n xs 0 j).2 = 0 →
    (partL compare p n xs 0 j).1 = xs ∧ ∀ k x, j ≤ k → k < j + n → xs[k]? = some x → 0 < compare x p
  | 0, xs, j, _, _ => ⟨rfl, fun k x h1 h2 => by omega⟩
  | n + 1, xs, j, hn, h => by
    unfold partL at h ⊢
    have hj : j < xs.length := by omega
    simp only [List.getElem?_eq_getElem hj] at h ⊢
    split at h
    · have := (partL_le (compare := compare) p n (swapL xs 0 j) (0 + 1) (j + 1)).1; omega
    · split at h
      · have := (partL_le (compare := compare) p n xs (0 + 1) (j + 1)).1; omega
      · rename_i c1 c2
        rw [if_neg c1, if_neg c2]
        obtain ⟨h1, h2⟩ := partL_zero p n (by omega) h
        refine ⟨h1, fun k x hk1 hk2 hx => ?_⟩
        by_cases e : k = j
        · subst e
          rw [List.getElem?_eq_getElem hj] at hx
          cases hx; omega
        · exact h2 k x (by omega) (by omega) hx

/-- When no element is equal to the pivot, the smaller ones come first. -/
theorem partL_split (p : List Byte) : ∀ (n : Nat) {xs : List (List Byte)} {i j : Nat}, i ≤ j → j + n < xs.length →
    (∀ k x, k < j + n → xs[k]? = some x → compare x p ≠ 0) →
    (∀ k x, k < i → xs[k]? = some x → compare x p < 0) → (∀ k x, i ≤ k → k < j → xs[k]? = some x → 0 < compare x p) →
    (∀ k x, k < (partL compare p n xs i j).2 → (partL compare p n xs i j).1[k]? = some x → compare x p < 0) ∧
    ∀ k x, (partL compare p n xs i j).2 ≤ k → k < j + n → (partL compare p n xs i j).1[k]? = some x → 0 < compare x p
  | 0, xs, i, j, _, _, _, h1, h2 => ⟨h1, fun k x hk hk' => h2 k x hk (by omega)⟩
  | n + 1, xs, i, j, hij, hn, hne, h1, h2 => by
    unfold partL
    have hj : j < xs.length := by omega
    have hi : i < xs.length := by omega
    simp only [List.getElem?_eq_getElem hj]
    split
    · rename_i c1
      have g := getElem?_swapL xs hi hj
      have := partL_split p n (xs := swapL xs i j) (i := i + 1) (j := j + 1) (by omega) (by rw [length_swapL]; omega) ?_ ?_ ?_
      · rw [show j + 1 + n = j + (n + 1) by omega] at this; exact this
      · intro k x hk hx
        rw [g] at hx
        split at hx
        · exact hne j x (by omega) hx
        · split at hx
          · exact hne i x (by omega) hx
          · exact hne k x (by omega) hx
      · intro k x hk hx
        rw [g] at hx
        split at hx
        · rw [List.getElem?_eq_getElem hj] at hx; cases hx; exact c1
        · rw [if_neg (by omega)] at hx
          exact h1 k x (by omega) hx
      · intro k x hk hk' hx
        rw [g, if_neg (by omega)] at hx
        split at hx
        · exact h2 i x (by omega) (by omega) hx
        · exact h2 k x (by omega) (by omega) hx
    · rename_i c1
      rw [if_neg (hne j _ (by omega) (List.getElem?_eq_getElem hj))]
      have := partL_split p n (xs := xs) (i := i) (j := j + 1) (by omega) (by omega) (fun k x hk => hne k x (by omega)) h1 ?_
      · rw [show j + 1 + n = j + (n + 1) by omega] at this; exact this
      · intro k x hk hk' hx
        by_cases e : k = j
        · subst e
          have := hne k x (by omega) hx
          rw [List.getElem?_eq_getElem hj] at hx
          cases hx; omega
        · exact h2 k x hk (by omega) hx

/-! ### qpart and qsort -/

theorem _root_.Mes.Spec.Consistent.self (h : Consistent compare) (x : List Byte) : compare x x = 0 := by
  have := h.opposite x x; omega

theorem _root_.Mes.Spec.Consistent.zero (h : Consistent compare) {x y : List Byte} (hx : compare x y ≠ 0) : compare y x ≠ 0 := by
  have := h.opposite x y; have := h.opposite y x; omega

/-- The first element is less than all others. -/
def HeadLess (compare : Compare) (xs : List (List Byte)) : Prop := ∀ x y k, xs[0]? = some x → xs[k + 1]? = some y → compare x y < 0

theorem qpart_ok (hc : Consistent compare) (hs : 0 < size) (h : Elements m base size xs) {count : Nat} (hl : xs.length = count + 1) :
    ∃ m' ys i, qpart compare m base count size = ok (m', i) ∧ Elements m' base size ys ∧ OnlyIn base (xs.length * size) m m' ∧ ys.Perm xs ∧
      i ≤ count ∧ (1 ≤ count → HeadLess compare xs → 1 ≤ i) ∧ (i = 0 → HeadLess compare ys) ∧
      (AllDifferent compare xs → ∀ a ∈ ys.take i, ∀ b ∈ ys.drop i, compare a b ≤ 0) := by
  have hp : xs[count]? = some xs[count] := List.getElem?_eq_getElem (by omega)
  generalize xs[count] = p at hp
  obtain ⟨m1, e1, e2, e3⟩ := qpartLoop_ok (compare := compare) hs count (i := 0) (j := 0) h (Nat.le_refl _) (by omega) hl hp
  have l1 := partL_le (compare := compare) p count xs 0 0
  have p1 := partL_perm (compare := compare) p count xs 0 0
  have q1 := partL_last (compare := compare) p count (xs := xs) (Nat.le_refl 0) (by omega)
  have z1 := partL_zero (compare := compare) p count (xs := xs) (j := 0) (by omega)
  have s1 := partL_split (compare := compare) p count (xs := xs) (Nat.le_refl 0) (by omega)
  have hh : 1 ≤ count → HeadLess compare xs → 1 ≤ (partL compare p count xs 0 0).2 := by
    intro h1 h2
    have h0 : xs[0]? = some xs[0] := List.getElem?_eq_getElem (by omega)
    obtain ⟨c, rfl⟩ : ∃ c, count = c + 1 := ⟨count - 1, by omega⟩
    have := h2 _ _ c h0 hp
    unfold partL
    simp only [h0]
    rw [if_pos this]
    exact (partL_le p c _ 1 1).1
  generalize (partL compare p count xs 0 0).1 = ys at *
  generalize (partL compare p count xs 0 0).2 = i at *
  have hly : ys.length = count + 1 := p1.length_eq.trans hl
  have hpy : ys[count]? = some p := by rw [q1 count (by omega), hp]
  have hiy : ys[i]? = some ys[i] := List.getElem?_eq_getElem (by omega)
  generalize hy : ys[i] = y at hiy
  have f1 := e2.element_ok hpy
  have f2 := e2.element_ok hiy
  have eq : qpart compare m base count size = (do
      let m ← if compare p y < 0 then qswap m1 (base + i * size) (base + count * size) size else ok m1
      ok (m, i)) := by
    unfold qpart
    simp only [e1, f1, f2, ok_bind]
  rw [eq]
  clear hy
  by_cases hcmp : compare p y < 0
  · obtain ⟨m2, g1, g2, g3⟩ := qswap_ok e2 hs (by omega : i < ys.length) (by omega : count < ys.length)
    rw [if_pos hcmp, g1]
    have hg := getElem?_swapL ys (by omega : i < ys.length) (by omega : count < ys.length)
    have hic : i ≠ count := by rintro rfl; rw [hpy] at hiy; cases hiy; have := hc.self p; omega
    refine ⟨m2, _, i, rfl, g2, e3.trans (by rw [hl, ← hly]; exact g3), (swapL_perm _ _ _).trans p1, by omega, hh, fun hi x z k hx hz => ?_, fun hd a ha b hb => ?_⟩
    · subst hi
      obtain ⟨rfl, z2⟩ := z1 rfl
      rw [hg, if_pos rfl, hpy] at hx
      cases hx
      rw [hg, if_neg (by omega)] at hz
      refine (hc.opposite _ _).2 ?_
      split at hz
      · exact z2 0 z (by omega) (by omega) hz
      · exact z2 (k + 1) z (by omega) (by have := (List.getElem?_eq_some_iff.1 hz).1; omega) hz
    · have hd' : ∀ k x, k < 0 + count → xs[k]? = some x → compare x p ≠ 0 := by
        intro k x hk hx
        obtain ⟨k1, rfl⟩ := List.getElem?_eq_some_iff.1 hx
        obtain ⟨k2, rfl⟩ := List.getElem?_eq_some_iff.1 hp
        exact List.pairwise_iff_getElem.1 hd k count k1 k2 (by omega)
      obtain ⟨s2, s3⟩ := s1 hd' (by omega) (by omega)
      have ap : compare a p < 0 := by
        obtain ⟨k, hk⟩ := List.getElem?_of_mem ha
        rw [List.getElem?_take] at hk
        split at hk
        · rw [hg, if_neg (by omega), if_neg (by omega)] at hk
          exact s2 k a (by omega) hk
        · cases hk
      have pb : compare p b ≤ 0 := by
        obtain ⟨k, hk⟩ := List.getElem?_of_mem hb
        rw [List.getElem?_drop, hg] at hk
        split at hk
        · rw [hpy] at hk; cases hk; have := hc.self p; omega
        · split at hk
          · have := (hc.opposite p b).2 (s3 i b (by omega) (by omega) hk); omega
          · have := (hc.opposite p b).2 (s3 _ b (by omega) (by have := (List.getElem?_eq_some_iff.1 hk).1; omega) hk); omega
      exact hc.trans _ _ _ (by omega) pb
  · rw [if_neg hcmp]
    refine ⟨m1, ys, i, rfl, e2, e3, p1, by omega, hh, fun hi x z k hx hz => ?_, fun hd a ha b hb => ?_⟩
    · subst hi
      obtain ⟨rfl, z2⟩ := z1 rfl
      rw [hiy] at hx
      cases hx
      have hk := (List.getElem?_eq_some_iff.1 hz).1
      have := (hc.opposite p _).2 (z2 0 _ (by omega) (by omega) hiy)
      omega
    · have hd' : ∀ k x, k < 0 + count → xs[k]? = some x → compare x p ≠ 0 := by
        intro k x hk hx
        obtain ⟨k1, rfl⟩ := List.getElem?_eq_some_iff.1 hx
        obtain ⟨k2, rfl⟩ := List.getElem?_eq_some_iff.1 hp
        exact List.pairwise_iff_getElem.1 hd k count k1 k2 (by omega)
      obtain ⟨s2, s3⟩ := s1 hd' (by omega) (by omega)
      have hic : i = count := by
        by_cases hic : i = count
        · exact hic
        · have := (hc.opposite p y).2 (s3 i y (by omega) (by omega) hiy); omega
      subst hic
      have ap : compare a p < 0 := by
        obtain ⟨k, hk⟩ := List.getElem?_of_mem ha
        rw [List.getElem?_take] at hk
        split at hk
        · exact s2 k a (by omega) hk
        · cases hk
      have pb : b = p := by
        obtain ⟨k, hk⟩ := List.getElem?_of_mem hb
        rw [List.getElem?_drop] at hk
        have : k = 0 := by have := (List.getElem?_eq_some_iff.1 hk).1; omega
        subst this
        rw [Nat.add_zero, hpy] at hk
        exact (Option.some.inj hk).symm
      rw [pb]; omega

theorem toInt32_nat {n : Nat} (h : n < 2 ^ 31) : toInt32 (n : Int) = n := by unfold toInt32; omega

theorem toSize_nat {n : Nat} (h : n < 2 ^ 31) : toSize (n : Int) = n := by unfold toSize; omega

/-- What a call of qsort does. -/
def Sorts (compare : Compare) (fuel : Nat) (m : Mem) (base size : Nat) (xs : List (List Byte)) : Prop :=
  ∃ m' ys, qsort compare fuel m base xs.length size = ok m' ∧ Elements m' base size ys ∧ OnlyIn base (xs.length * size) m m' ∧ ys.Perm xs ∧
    (AllDifferent compare xs → InOrder compare ys)

theorem sorts_small (fuel : Nat) (h : Elements m base size xs) (hl : xs.length ≤ 1) : Sorts compare (fuel + 1) m base size xs := by
  refine ⟨m, xs, by unfold qsort; rw [if_neg (by omega)], h, .refl _ _ _, .refl _, fun _ => ?_⟩
  match xs, hl with
  | [], _ => exact .nil
  | [x], _ => exact List.pairwise_singleton _ _

/-- One round, when both parts are sorted. -/
theorem sorts_parts (hc : Consistent compare) {fuel i : Nat} {count : Nat} (hl : xs.length = count + 1) (hn : xs.length < 2 ^ 31) (h1 : 1 ≤ count)
    {ys : List (List Byte)} (e1 : qpart compare m base count size = ok (m', i)) (e2 : Elements m' base size ys) (e3 : OnlyIn base (xs.length * size) m m')
    (e4 : ys.Perm xs) (e5 : i ≤ count) (e8 : AllDifferent compare xs → ∀ a ∈ ys.take i, ∀ b ∈ ys.drop i, compare a b ≤ 0)
    (r1 : Sorts compare fuel m' base size (ys.take i)) (r2 : ∀ m'', Elements m'' (base + i * size) size (ys.drop i) → Sorts compare fuel m'' (base + i * size) size (ys.drop i)) :
    Sorts compare (fuel + 1) m base size xs := by
  have hly : ys.length = xs.length := e4.length_eq
  have l1 : (ys.take i).length = i := by rw [List.length_take]; omega
  have l2 : (ys.drop i).length = count + 1 - i := by rw [List.length_drop]; omega
  obtain ⟨m1, as, a1, a2, a3, a4, a5⟩ := r1
  have hd : Elements m1 (base + i * size) size (ys.drop i) := (e2.drop i).outside a3 (.inr (by rw [l1]; omega))
  obtain ⟨m2, bs, b1, b2, b3, b4, b5⟩ := r2 m1 hd
  rw [l1] at a1 a3
  rw [l2] at b1 b3
  have hm : i * size + (count + 1 - i) * size = xs.length * size := by rw [← Nat.add_mul, hl]; congr 1; omega
  have hal : as.length = i := by rw [a4.length_eq, l1]
  refine ⟨m2, as ++ bs, ?_, ?_, ?_, ?_, fun hdiff => ?_⟩
  · unfold qsort
    rw [if_pos (by omega), show xs.length - 1 = count by omega]
    simp only [e1, ok_bind]
    rw [toInt32_nat (by omega), toSize_nat (by omega), a1]
    simp only [ok_bind]
    rw [show ((xs.length : Int) - i) = ((count + 1 - i : Nat) : Int) by omega, toSize_nat (by omega)]
    exact b1
  · refine Elements.append (a2.outside b3 (.inl ?_)) (by rw [hal]; exact b2)
    rw [hal]; omega
  · refine e3.trans ((a3.mono (Nat.le_refl _) (by omega)).trans (b3.mono (by omega) (by omega)))
  · exact ((a4.append b4).trans (by rw [List.take_append_drop])).trans e4
  · have hdy : AllDifferent compare ys := (e4.pairwise_iff (fun {x y} hx => hc.zero hx)).2 hdiff
    refine List.pairwise_append.2 ⟨a5 (List.Pairwise.sublist (List.take_sublist i ys) hdy), b5 (List.Pairwise.sublist (List.drop_sublist i ys) hdy), fun a ha b hb => ?_⟩
    exact e8 hdiff a (a4.mem_iff.1 ha) b (b4.mem_iff.1 hb)

theorem sorts (hc : Consistent compare) (hs : 0 < size) : ∀ (n : Nat) {m : Mem} {base : Nat} {xs : List (List Byte)} {fuel : Nat}, xs.length ≤ n →
    Elements m base size xs → xs.length < 2 ^ 31 → 2 * xs.length + 1 ≤ fuel → Sorts compare fuel m base size xs
  | 0, m, base, xs, fuel, hn, h, hl, hf => by
    obtain ⟨fuel, rfl⟩ : ∃ f, fuel = f + 1 := ⟨fuel - 1, by omega⟩
    exact sorts_small fuel h (by omega)
  | n + 1, m, base, xs, fuel, hn, h, hl, hf => by
    obtain ⟨fuel, rfl⟩ : ∃ f, fuel = f + 1 := ⟨fuel - 1, by omega⟩
    by_cases h1 : xs.length ≤ 1
    · exact sorts_small fuel h h1
    obtain ⟨count, hcount⟩ : ∃ c, xs.length = c + 1 := ⟨xs.length - 1, by omega⟩
    -- a round that splits the array
    have split : ∀ {m m' : Mem} {base i fuel : Nat} {xs ys : List (List Byte)}, xs.length = count + 1 → 2 * (count + 1) ≤ fuel + 1 →
        Elements m base size xs → qpart compare m base count size = ok (m', i) → Elements m' base size ys → OnlyIn base (xs.length * size) m m' → ys.Perm xs → i ≤ count →
        (AllDifferent compare xs → ∀ a ∈ ys.take i, ∀ b ∈ ys.drop i, compare a b ≤ 0) → 1 ≤ i → Sorts compare (fuel + 1) m base size xs := by
      intro m m' base i fuel xs ys hx hf h e1 e2 e3 e4 e5 e8 hi
      have hly : ys.length = xs.length := e4.length_eq
      have l1 : (ys.take i).length = i := by rw [List.length_take]; omega
      have l2 : (ys.drop i).length = count + 1 - i := by rw [List.length_drop]; omega
      exact sorts_parts hc hx (by omega) (by omega) e1 e2 e3 e4 e5 e8 (sorts hc hs n (by omega) (e2.take i) (by omega) (by omega))
        fun m'' h'' => sorts hc hs n (by omega) h'' (by omega) (by omega)
    obtain ⟨m', ys, i, e1, e2, e3, e4, e5, e6, e7, e8⟩ := qpart_ok hc hs h hcount
    by_cases hi : 1 ≤ i
    · exact split hcount (by omega) h e1 e2 e3 e4 e5 e8 hi
    · have hi0 : i = 0 := by omega
      subst hi0
      obtain ⟨fuel, rfl⟩ : ∃ f, fuel = f + 1 := ⟨fuel - 1, by omega⟩
      have hly : ys.length = xs.length := e4.length_eq
      refine sorts_parts hc hcount (by omega) (by omega) e1 e2 e3 e4 e5 e8 (sorts_small fuel (e2.take 0) (by simp)) fun m'' h'' => ?_
      rw [Nat.zero_mul, Nat.add_zero, List.drop_zero] at h'' ⊢
      obtain ⟨m3, zs, i', f1, f2, f3, f4, f5, f6, f7, f8⟩ := qpart_ok hc hs h'' (hly.trans hcount)
      exact split (hly.trans hcount) (by omega) h'' f1 f2 f3 f4 f5 f8 (f6 (by omega) (e7 rfl))

end Mes.C
