import Verif.Model.Gc
import Verif.Spec.Gc
import Verif.Proof.Heap
/-
Lemmas about the garbage collector.

`L` is the list of the objects copied so far, in the order in which they were copied; the copy of an object starts at
`base + off s0 L a`, where `s0` is the memory before the collection.
-/
namespace Mes.Gc
open Res Spec

/-! ### Layout -/

def total (s0 : St) : List Int → Nat
  | [] => 0
  | a :: L => size s0 a + total s0 L

def off (s0 : St) : List Int → Int → Nat
  | [], _ => 0
  | b :: L, a => if b = a then 0 else size s0 b + off s0 L a

variable {s0 : St}

theorem size_pos (s0 : St) (a : Int) : 0 < size s0 a := by
  unfold size bytesCells
  split
  · omega
  · split
    · have : (8 + 8 + (s0.cell a).bytes.length - 1 + 8) / 8 ≥ 1 := by omega
      omega
    · omega

theorem total_append (L M : List Int) : total s0 (L ++ M) = total s0 L + total s0 M := by
  induction L with
  | nil => simp [total]
  | cons b L ih => simp only [List.cons_append, total, ih]; omega

theorem off_append {L M : List Int} {a : Int} (h : a ∈ L) : off s0 (L ++ M) a = off s0 L a := by
  induction L with
  | nil => simp at h
  | cons b L ih =>
    simp only [List.cons_append, off]
    by_cases hb : b = a
    · simp [hb]
    · simp only [if_neg hb]
      rw [ih (by rcases List.mem_cons.1 h with h | h; exact absurd h.symm hb; exact h)]

theorem off_new {L M : List Int} {a : Int} (h : a ∉ L) : off s0 (L ++ a :: M) a = total s0 L := by
  induction L with
  | nil => simp [off, total]
  | cons b L ih =>
    simp only [List.mem_cons, not_or] at h
    simp only [List.cons_append, off, if_neg (Ne.symm h.1), total, ih h.2]

theorem off_le {L : List Int} {a : Int} (h : a ∈ L) : off s0 L a + size s0 a ≤ total s0 L := by
  induction L with
  | nil => simp at h
  | cons b L ih =>
    simp only [off, total]
    by_cases hb : b = a
    · subst hb; simp
    · rw [if_neg hb]
      have := ih (by rcases List.mem_cons.1 h with h | h; exact absurd h.symm hb; exact h)
      omega

theorem off_disjoint {L : List Int} {a b : Int} (ha : a ∈ L) (hb : b ∈ L) (hne : a ≠ b) :
    off s0 L a + size s0 a ≤ off s0 L b ∨ off s0 L b + size s0 b ≤ off s0 L a := by
  induction L with
  | nil => simp at ha
  | cons c L ih =>
    simp only [off]
    by_cases hca : c = a
    · subst hca; left; rw [if_neg hne]; simp
    · by_cases hcb : c = b
      · subst hcb; right; rw [if_neg hca]; simp
      · rw [if_neg hca, if_neg hcb]
        have := ih (by rcases List.mem_cons.1 ha with h | h; exact absurd h.symm hca; exact h)
          (by rcases List.mem_cons.1 hb with h | h; exact absurd h.symm hcb; exact h)
        omega

theorem off_inj {L : List Int} {a b : Int} (ha : a ∈ L) (hb : b ∈ L) (h : off s0 L a = off s0 L b) : a = b := by
  rcases Decidable.em (a = b) with h' | h'
  · exact h'
  · have := off_disjoint (s0 := s0) ha hb h'
    have := size_pos s0 a
    have := size_pos s0 b
    omega

theorem off_cover {L : List Int} (hn : L.Nodup) {n : Nat} (h : n < total s0 L) :
    ∃ a ∈ L, off s0 L a ≤ n ∧ n < off s0 L a + size s0 a := by
  induction L generalizing n with
  | nil => simp [total] at h
  | cons b L ih =>
    simp only [total] at h
    rcases Nat.lt_or_ge n (size s0 b) with h1 | h1
    · exact ⟨b, by simp, by simp [off], by simpa [off] using h1⟩
    · obtain ⟨a, ha, h2, h3⟩ := ih (List.nodup_cons.1 hn).2 (n := n - size s0 b) (by omega)
      have hne : b ≠ a := by rintro rfl; exact (List.nodup_cons.1 hn).1 ha
      exact ⟨a, by simp [ha], by simp only [off, if_neg hne]; omega, by simp only [off, if_neg hne]; omega⟩

/-- An object is followed by another one, or by nothing. -/
theorem off_next {L : List Int} (hn : L.Nodup) {a : Int} (ha : a ∈ L) :
    off s0 L a + size s0 a = total s0 L ∨ ∃ b ∈ L, off s0 L b = off s0 L a + size s0 a := by
  have h1 := off_le (s0 := s0) ha
  rcases Nat.lt_or_ge (off s0 L a + size s0 a) (total s0 L) with h | h
  · obtain ⟨b, hb, h2, h3⟩ := off_cover hn h
    refine .inr ⟨b, hb, ?_⟩
    have hne : a ≠ b := by
      rintro rfl
      omega
    have := off_disjoint (s0 := s0) ha hb hne
    have := size_pos s0 a
    omega
  · exact .inl (by omega)

theorem total_erase {M : List Int} {a : Int} (h : a ∈ M) : total s0 M = size s0 a + total s0 (M.erase a) := by
  induction M with
  | nil => simp at h
  | cons b M ih =>
    by_cases hb : b = a
    · subst hb; simp [total]
    · rw [List.erase_cons_tail (by simpa using hb)]
      simp only [total]
      rw [ih (by rcases List.mem_cons.1 h with h | h; exact absurd h.symm hb; exact h)]
      omega

theorem total_le {L M : List Int} (hn : L.Nodup) (h : ∀ a ∈ L, a ∈ M) : total s0 L ≤ total s0 M := by
  induction L generalizing M with
  | nil => simp [total]
  | cons b L ih =>
    have hb := h b (by simp)
    rw [total_erase hb]
    simp only [total]
    have := ih (M := M.erase b) (List.nodup_cons.1 hn).2 (fun a ha => by
      have hne : a ≠ b := by rintro rfl; exact (List.nodup_cons.1 hn).1 ha
      exact (List.mem_erase_of_ne hne).2 (h a (by simp [ha])))
    omega

theorem total_live (s : St) : liveSize s = total s (live s) := by
  unfold liveSize
  generalize live s = L
  induction L with
  | nil => rfl
  | cons b L ih => simp only [List.map_cons, List.sum_cons, total, ih]

theorem mem_live {s : St} (hs : Sound s) {a : Int} : a ∈ live s ↔ Reach s a := by
  classical
  simp only [live, List.mem_filter, List.mem_map, List.mem_range, decide_eq_true_eq]
  constructor
  · exact fun h => h.2
  · intro h
    have := hs.inside a h a (.inl rfl)
    refine ⟨⟨a.toNat, ?_, ?_⟩, h⟩
    · simp only [c_nil] at this; omega
    · simp only [c_nil] at this; simp; omega

theorem live_nodup (s : St) : (live s).Nodup := by
  classical
  refine List.Pairwise.filter _ ?_
  refine List.Pairwise.map _ ?_ (List.nodup_range (n := s.free.toNat))
  intro a b h h'
  exact h (Int.ofNat.inj h')

/-! ### Copying -/

/-- The cells of an object, in the order in which they are copied, before their addresses are changed. -/
def src (s0 : St) (base : Int) (L : List Int) (a : Int) (k : Nat) : Cell :=
  if k = 0 then
    { tag := (s0.cell a).tag
      car := (s0.cell a).car
      cdr := if isBlock (s0.cell a).tag then base + off s0 L a + 1 else (s0.cell a).cdr
      bytes := if (s0.cell a).tag = .bytes then (s0.cell a).bytes else [] }
  else { s0.cell ((s0.cell a).cdr + (k - 1 : Nat)) with bytes := [] }

/-- A cell with the addresses of the copies. -/
def reloc (s0 : St) (base : Int) (L : List Int) (c : Cell) : Cell :=
  { c with
    car := if refCar c.tag then base + off s0 L c.car else c.car
    cdr := if refCdr c.tag then base + off s0 L c.cdr else c.cdr }

/-- Only the first cell of a byte object has contents of its own. -/
def Slot (s0 : St) (a : Int) (k : Nat) : Prop := k < size s0 a ∧ ((s0.cell a).tag = .bytes → k = 0)

/-- The state of a collection: the objects in `L` are copied, and the copies below `scan` have their new addresses.  The
cells in `H` are being changed. -/
structure Inv (s0 : St) (base : Int) (L : List Int) (scan : Int) (H : Int → Prop) (s : St) : Prop where
  nodup : L.Nodup
  reach : ∀ a ∈ L, Reach s0 a
  free : s.free = base + total s0 L
  limit : s.limit = s0.limit
  zero : (s.cell (base - 1)).tag = .char
  old : ∀ a, a < s0.free → a ∉ L → s.cell a = s0.cell a
  fwd : ∀ a ∈ L, s.cell a = { s0.cell a with tag := .brokenHeart, car := base + off s0 L a }
  new : ∀ a ∈ L, ∀ k, Slot s0 a k → ¬ H (base + off s0 L a + k) → s.cell (base + off s0 L a + k) =
    if base + off s0 L a + k < scan then reloc s0 base L (src s0 base L a k) else src s0 base L a k
  closed : ∀ a ∈ L, ∀ k, Slot s0 a k → base + off s0 L a + k < scan → ¬ H (base + off s0 L a + k) →
    (refCar (src s0 base L a k).tag → (src s0 base L a k).car ∈ L) ∧
    (refCdr (src s0 base L a k).tag → (src s0 base L a k).cdr ∈ L)

/-- What is fixed during a collection. -/
structure Ctx (s0 : St) (base : Int) : Prop where
  sound : Sound s0
  above : s0.free < base
  space : base + liveSize s0 ≤ s0.limit

theorem rdRaw_ok {s : St} {a : Int} (h : 1 ≤ a) (h' : a < s.limit) : s.rdRaw a = ok (s.cell a) := by
  simp [St.rdRaw, h, h']
theorem putRaw_ok {s : St} {a : Int} {c : Cell} (h : 1 ≤ a) (h' : a < s.limit) : s.putRaw a c = ok (s.upd a c) := by
  simp [St.putRaw, h, h']

/-- The two states differ in the memory only. -/
def Regs (s s' : St) : Prop := { s' with cell := s.cell, free := s.free } = s

theorem Regs.refl (s : St) : Regs s s := rfl
theorem Regs.trans {s s1 s2 : St} (h : Regs s s1) (h' : Regs s1 s2) : Regs s s2 := by
  cases s; cases s1; cases s2
  simp only [Regs, St.mk.injEq] at *
  obtain ⟨-, -, h⟩ := h
  obtain ⟨-, -, h'⟩ := h'
  simp [h, h']
theorem Regs.step (s : St) (a : Int) (c : Cell) (f : Int) : Regs s { s.upd a c with free := f } := rfl
theorem Regs.upd (s : St) (a : Int) (c : Cell) : Regs s (s.upd a c) := rfl

theorem Regs.limit {s s' : St} (h : Regs s s') : s'.limit = s.limit := by rw [← h]

theorem upd_cell (s : St) (a x : Int) (c : Cell) : (s.upd a c).cell x = if x = a then c else s.cell x := rfl

theorem gcCopyElements_ok : ∀ (n : Nat) (s : St) (v : Int), (0 < n → 1 ≤ v ∧ v + n ≤ s.free) → s.free + n ≤ s.limit →
    ∃ s', gcCopyElements n s v = ok s' ∧ s'.free = s.free + n ∧
      (∀ k : Nat, k < n → s'.cell (s.free + k) = { s.cell (v + k) with bytes := [] }) ∧
      (∀ x, ¬ (s.free ≤ x ∧ x < s.free + n) → s'.cell x = s.cell x) ∧
      Regs s s'
  | 0, s, v, _, _ => ⟨s, rfl, by simp, by simp, fun _ _ => rfl, rfl⟩
  | n + 1, s, v, h12, h3 => by
    obtain ⟨h1, h2⟩ := h12 (by omega)
    simp only [Int.natCast_add, Int.cast_ofNat_Int] at h2 h3
    obtain ⟨s', g1, g2, g3, g4, g5⟩ := gcCopyElements_ok n
      { s.upd s.free { s.cell v with bytes := [] } with free := s.free + 1 } (v + 1)
      (fun _ => ⟨by omega, by show v + 1 + n ≤ s.free + 1; omega⟩) (by show s.free + 1 + n ≤ s.limit; omega)
    simp only at g2 g3 g4 g5
    refine ⟨s', ?_, by rw [g2]; omega, fun k hk => ?_, fun x hx => ?_, ?_⟩
    · simp only [gcCopyElements, rdRaw_ok h1 (by omega : v < s.limit), ok_bind,
        putRaw_ok (s := s) (a := s.free) (by omega) (by omega)]
      exact g1
    · cases k with
      | zero =>
        rw [g4 _ (by simp; omega)]
        simp [upd_cell]
      | succ k =>
        have := g3 k (by omega)
        rw [show s.free + ((k + 1 : Nat) : Int) = s.free + 1 + k by omega, this, upd_cell, if_neg (by omega)]
        rw [show v + ((k + 1 : Nat) : Int) = v + 1 + k by omega]
    · rw [g4 x (by omega), upd_cell, if_neg (by omega)]
    · exact (Regs.step s _ _ _).trans g5

theorem isBlock_iff {t : Tag} : isBlock t = true ↔ t = .struct ∨ t = .vector := by cases t <;> simp [isBlock]

theorem element_inside {a : Int} (hs : Sound s0) (ha : Reach s0 a) (hb : isBlock (s0.cell a).tag) {i : Nat}
    (hi : i < (s0.cell a).car) : 3 ≤ (s0.cell a).cdr + i ∧ (s0.cell a).cdr + i < s0.free :=
  hs.inside a ha _ (.inr (.inl ⟨hb, by omega, by omega⟩))

theorem gcCopyRest_ok {t : St} {new base a : Int} {L : List Int} (hs : Sound s0) (ha : Reach s0 a)
    (ht : t.free = new + 1) (hn : s0.free ≤ new) (h1 : 1 ≤ new) (hl : new + size s0 a ≤ t.limit)
    (hc : t.cell new = { s0.cell a with bytes := [] })
    (he : isBlock (s0.cell a).tag → ∀ i : Nat, i < (s0.cell a).car →
      t.cell ((s0.cell a).cdr + i) = s0.cell ((s0.cell a).cdr + i))
    (hL : base + off s0 L a = new) :
    ∃ s', gcCopyRest t new (s0.cell a) = ok s' ∧ s'.free = new + size s0 a ∧
      (∀ k, Slot s0 a k → s'.cell (new + k) = src s0 base L a k) ∧
      (∀ x, ¬ (new ≤ x ∧ x < new + size s0 a) → s'.cell x = t.cell x) ∧ Regs t s' := by
  unfold gcCopyRest
  by_cases hbl : isBlock (s0.cell a).tag
  · have hlen := hs.length a ha hbl
    have hsize : (size s0 a : Int) = 1 + (s0.cell a).car := by simp [size, hbl]; omega
    have hn' : ((s0.cell a).car.toNat : Int) = (s0.cell a).car := by omega
    have hown := fun i hi => element_inside hs ha hbl (i := i) hi
    rw [if_pos (isBlock_iff.1 hbl), putRaw_ok h1 (by omega)]
    obtain ⟨s', g1, g2, g3, g4, g5⟩ := gcCopyElements_ok (s0.cell a).car.toNat
      (t.upd new { s0.cell a with cdr := t.free, bytes := [] }) (s0.cell a).cdr
      (fun h => by
        have := hown 0 (by omega)
        have := hown ((s0.cell a).car.toNat - 1) (by omega)
        show 1 ≤ (s0.cell a).cdr ∧ (s0.cell a).cdr + _ ≤ t.free
        omega) (by show t.free + _ ≤ t.limit; omega)
    have hfree : (t.upd new { s0.cell a with cdr := t.free, bytes := [] }).free = new + 1 := ht
    rw [hfree] at g2 g3 g4
    refine ⟨s', g1, by omega, fun k hk => ?_, fun x hx => ?_, (Regs.upd _ _ _).trans g5⟩
    · have hk1 := hk.1
      cases k with
      | zero =>
        rw [g4 _ (by simp; omega), upd_cell, if_pos (by simp)]
        have : (s0.cell a).tag ≠ .bytes := by intro h; rw [h] at hbl; simp [isBlock] at hbl
        simp [src, hbl, this, ht, hL]
      | succ k =>
        have := hown k (by omega)
        rw [show new + ((k + 1 : Nat) : Int) = new + 1 + k by omega, g3 k (by omega), upd_cell, if_neg (by omega),
          he hbl k (by omega)]
        simp [src]
    · rw [g4 x (by omega), upd_cell, if_neg (by omega)]
  · rw [if_neg (fun h => hbl (isBlock_iff.2 h))]
    by_cases hby : (s0.cell a).tag = .bytes
    · have hlen := hs.bytes a ha hby
      have hn' : (s0.cell a).car.toNat = (s0.cell a).bytes.length := by omega
      have hsize : (size s0 a : Int) = bytesCells (s0.cell a).bytes.length := by
        unfold size
        rw [if_neg hbl, if_pos hby]
        unfold bytesCells
        omega
      have hsz := size_pos s0 a
      rw [if_pos hby, ubUnless_true ⟨by omega, by omega⟩]
      simp only [ok_bind, hn']
      rw [ubUnless_true (by show t.free + _ ≤ t.limit; omega), ok_bind, putRaw_ok h1 (by show new < t.limit; omega)]
      refine ⟨_, rfl, ?_, fun k hk => ?_, fun x hx => ?_, Regs.step t _ _ _⟩
      · show t.free + _ = _
        omega
      · obtain rfl := hk.2 hby
        rw [upd_cell, if_pos (by simp)]
        simp [src, hby, isBlock]
      · rw [upd_cell, if_neg (by omega)]
    · have hsize : size s0 a = 1 := by simp [size, hbl, hby]
      rw [if_neg hby]
      refine ⟨t, rfl, by omega, fun k hk => ?_, fun x hx => rfl, Regs.refl t⟩
      have := hk.1
      obtain rfl : k = 0 := by omega
      rw [show new + ((0 : Nat) : Int) = new by omega, hc]
      simp [src, hbl, hby]

/-- Copying an object that was not copied yet. -/
theorem gcCopy_new {s : St} {base : Int} {a : Int} (hs : Sound s0) (ha : Reach s0 a)
    (hfree : s0.free ≤ s.free) (hl : s.free + size s0 a ≤ s.limit) (hc : s.cell a = s0.cell a)
    (he : isBlock (s0.cell a).tag → ∀ i : Nat, i < (s0.cell a).car →
      s.cell ((s0.cell a).cdr + i) = s0.cell ((s0.cell a).cdr + i)) (L : List Int)
    (hL : base + off s0 L a = s.free) :
    ∃ s', gcCopy s a = ok (s.free, s') ∧ s'.free = s.free + size s0 a ∧
      s'.cell a = { s0.cell a with tag := .brokenHeart, car := s.free } ∧
      (∀ k, Slot s0 a k → s'.cell (s.free + k) = src s0 base L a k) ∧
      (∀ x, x ≠ a → ¬ (s.free ≤ x ∧ x < s.free + size s0 a) → s'.cell x = s.cell x) ∧
      Regs s s' := by
  have hin := hs.inside a ha a (.inl rfl)
  have hw := hs.whole a ha
  have hsz := size_pos s0 a
  simp only [c_nil] at hin
  have h1a : 1 ≤ a := by omega
  have hal : a < s.limit := by omega
  have hane : a ≠ s.free := by omega
  have hf1 : 1 ≤ s.free := by omega
  have hfl : s.free < s.limit := by omega
  obtain ⟨s', g1, g2, g3, g4, g5⟩ := gcCopyRest_ok (s0 := s0) (base := base)
    (t := { s.upd s.free { s0.cell a with bytes := [] } with free := s.free + 1 }) (new := s.free) (L := L)
    hs ha rfl hfree hf1 hl (by simp [upd_cell])
    (fun h i hi => by
      have := element_inside hs ha h hi
      show (s.upd s.free _).cell _ = _
      rw [upd_cell, if_neg (by omega), he h i hi]) hL
  have hlim : s'.limit = s.limit := g5.limit
  have g5' : Regs s s' := (Regs.step s _ _ _).trans g5
  have hcell : ∀ x, ¬ (s.free ≤ x ∧ x < s.free + size s0 a) → s'.cell x = s.cell x := fun x hx => by
    rw [g4 x hx]
    show (s.upd s.free _).cell _ = _
    rw [upd_cell, if_neg (by omega)]
  refine ⟨s'.upd a { s'.cell a with tag := .brokenHeart, car := s.free }, ?_, g2, ?_, fun k hk => ?_, fun x hx hx' => ?_,
    g5'.trans (Regs.upd _ _ _)⟩
  · simp only [gcCopy, rdRaw_ok h1a hal, hc, ok_bind, if_neg hw, putRaw_ok hf1 hfl]
    have g1' := g1
    simp only [St.upd] at g1' ⊢
    rw [g1']
    simp only [ok_bind, rdRaw_ok h1a (by rw [hlim]; exact hal : a < s'.limit),
      putRaw_ok h1a (by rw [hlim]; exact hal : a < s'.limit), St.upd]
  · rw [upd_cell, if_pos rfl, hcell a (by omega), hc]
  · have := hk.1
    rw [upd_cell, if_neg (by omega), g3 k hk]
  · rw [upd_cell, if_neg hx, hcell x hx']

/-- The copied objects after copying `a`. -/
def ins (L : List Int) (a : Int) : List Int := if a ∈ L then L else L ++ [a]

theorem ins_prefix (L : List Int) (a : Int) : ∃ M, ins L a = L ++ M := by
  unfold ins
  split
  · exact ⟨[], by simp⟩
  · exact ⟨[a], rfl⟩

theorem mem_ins (L : List Int) (a : Int) : a ∈ ins L a := by
  unfold ins
  split <;> simp [*]

/-- `gc_copy` of a reachable object. -/
theorem gcCopy_ok {s : St} {base scan : Int} {L : List Int} {H : Int → Prop} {a : Int} (hx : Ctx s0 base)
    (hI : Inv s0 base L scan H s) (ha : Reach s0 a) (hscan : scan ≤ s.free) (hH : ∀ x, H x → x < s.free) :
    ∃ s', gcCopy s a = ok (base + off s0 (ins L a) a, s') ∧ Inv s0 base (ins L a) scan H s' ∧
      s.free ≤ s'.free ∧ (∀ x, base ≤ x → x < s.free → s'.cell x = s.cell x) ∧ Regs s s' := by
  have hin := hx.sound.inside a ha a (.inl rfl)
  have habove := hx.above
  have hspace := hx.space
  simp only [c_nil] at hin
  by_cases haL : a ∈ L
  · rw [ins, if_pos haL]
    refine ⟨s, ?_, hI, Int.le_refl _, fun _ _ _ => rfl, Regs.refl s⟩
    have := hI.free
    rw [gcCopy, rdRaw_ok (by omega) (by rw [hI.limit]; omega), hI.fwd a haL]
    rfl
  · rw [ins, if_neg haL]
    have hoff : off s0 (L ++ [a]) a = total s0 L := off_new haL
    have hnd : (L ++ [a]).Nodup := by
      rw [List.nodup_append]
      refine ⟨hI.nodup, by simp, ?_⟩
      intro x hx y hy
      simp at hy
      subst hy
      rintro rfl
      exact haL hx
    have hre : ∀ x ∈ L ++ [a], Reach s0 x := by
      intro x hx
      rcases List.mem_append.1 hx with h | h
      · exact hI.reach x h
      · simp at h; subst h; exact ha
    have htot : total s0 (L ++ [a]) = total s0 L + size s0 a := by rw [total_append]; simp [total]
    have htl : total s0 (L ++ [a]) ≤ liveSize s0 := by
      rw [total_live]
      exact total_le hnd (fun x hx' => (mem_live hx.sound).2 (hre x hx'))
    have hfree := hI.free
    have hlim := hI.limit
    obtain ⟨s', g1, g2, g3, g4, g5, g6⟩ := gcCopy_new (s0 := s0) (base := base) (s := s) (a := a) hx.sound ha
      (by omega) (by omega) (hI.old a hin.2 haL)
      (fun hb i hi => by
        have := element_inside hx.sound ha hb hi
        refine hI.old _ this.2 (fun hmem => ?_)
        have e := hx.sound.disjoint a _ _ ha (hI.reach _ hmem) (.inr (.inl ⟨hb, by omega, by omega⟩)) (.inl rfl)
        exact hx.sound.head a ha hb ⟨by omega, by omega⟩) (L ++ [a]) (by omega)
    have hsame : ∀ b ∈ L, ∀ k : Nat, k < size s0 b → s'.cell (base + off s0 L b + k) = s.cell (base + off s0 L b + k) :=
      fun b hb k hk => by
        have := off_le (s0 := s0) hb
        exact g5 _ (by omega) (by omega)
    have hsrc : ∀ b ∈ L, ∀ k, src s0 base (L ++ [a]) b k = src s0 base L b k := fun b hb k => by
      simp [src, off_append hb]
    refine ⟨s', by rw [g1, hoff, hfree], ⟨hnd, hre, by omega, by rw [g6.limit, hlim],
      by rw [g5 _ (by omega) (by omega)]; exact hI.zero, ?_, ?_, ?_, ?_⟩,
      by omega, fun x h1 h2 => g5 x (by omega) (by omega), g6⟩
    · intro x hx1 hx2
      simp only [List.mem_append, List.mem_singleton, not_or] at hx2
      rw [g5 x hx2.2 (by omega), hI.old x hx1 hx2.1]
    · intro b hb
      rcases List.mem_append.1 hb with h | h
      · have hbin := hx.sound.inside b (hI.reach b h) b (.inl rfl)
        rw [g5 b (by rintro rfl; exact haL h) (by omega), hI.fwd b h, off_append h]
      · simp at h; subst h
        rw [g3, hoff, hfree]
    · intro b hb k hk hHk
      rcases List.mem_append.1 hb with h | h
      · rw [off_append h] at hHk ⊢
        rw [hsame b h k hk.1, hI.new b h k hk hHk, hsrc b h k]
        split
        · rename_i hlt
          obtain ⟨c1, c2⟩ := hI.closed b h k hk hlt hHk
          unfold reloc
          congr 1
          · split
            · rw [off_append (c1 ‹_›)]
            · rfl
          · split
            · rw [off_append (c2 ‹_›)]
            · rfl
        · rfl
      · simp at h; subst h
        rw [hoff, ← hfree, g4 k hk, if_neg (by omega)]
    · intro b hb k hk hlt hHk
      rcases List.mem_append.1 hb with h | h
      · rw [off_append h] at hlt hHk
        obtain ⟨c1, c2⟩ := hI.closed b h k hk hlt hHk
        rw [hsrc b h k]
        exact ⟨fun h => List.mem_append_left _ (c1 h), fun h => List.mem_append_left _ (c2 h)⟩
      · simp at h; subst h
        rw [hoff] at hlt
        omega

/-! ### Scanning -/

theorem Inv.hole {s : St} {base scan : Int} {L : List Int} (hI : Inv s0 base L scan (fun _ => False) s) (H : Int → Prop) :
    Inv s0 base L scan H s :=
  ⟨hI.nodup, hI.reach, hI.free, hI.limit, hI.zero, hI.old, hI.fwd, fun a ha k hk _ => hI.new a ha k hk id,
    fun a ha k hk h _ => hI.closed a ha k hk h id⟩

theorem Inv.put {s : St} {base scan p : Int} {L : List Int} {H : Int → Prop} (hx : Ctx s0 base)
    (hI : Inv s0 base L scan H s) (hp : base ≤ p) (hH : H p) (c : Cell) : Inv s0 base L scan H (s.upd p c) := by
  have habove := hx.above
  refine ⟨hI.nodup, hI.reach, hI.free, hI.limit, ?_, fun a h1 h2 => ?_, fun a ha => ?_, fun a ha k hk hh => ?_, hI.closed⟩
  · rw [upd_cell, if_neg (by omega)]; exact hI.zero
  · rw [upd_cell, if_neg (by omega), hI.old a h1 h2]
  · have := hx.sound.inside a (hI.reach a ha) a (.inl rfl)
    rw [upd_cell, if_neg (by omega), hI.fwd a ha]
  · rw [upd_cell, if_neg (by rintro rfl; exact hh hH), hI.new a ha k hk hh]

theorem Inv.regs {s s' : St} {base scan : Int} {L : List Int} {H : Int → Prop}
    (hI : Inv s0 base L scan H s) (h : s'.cell = s.cell) (h' : s'.free = s.free) (h'' : s'.limit = s.limit) :
    Inv s0 base L scan H s' := by
  refine ⟨hI.nodup, hI.reach, by rw [h', hI.free], by rw [h'', hI.limit], ?_, ?_, ?_, ?_, hI.closed⟩ <;> rw [h]
  · exact hI.zero
  · exact hI.old
  · exact hI.fwd
  · exact hI.new

theorem src_tag (hs : Sound s0) {base : Int} {L : List Int} {a : Int} {k : Nat} (ha : Reach s0 a) (hk : Slot s0 a k) :
    (src s0 base L a k).tag ≠ .brokenHeart ∧
    (k ≠ 0 → isBlock (s0.cell a).tag ∧ (k : Int) - 1 < (s0.cell a).car ∧ ((src s0 base L a k).tag = .ref ∨
      (src s0 base L a k).tag = .number ∨ (src s0 base L a k).tag = .char)) := by
  by_cases h0 : k = 0
  · subst h0
    exact ⟨by simpa [src] using hs.whole a ha, by simp⟩
  · obtain ⟨h1, h2⟩ := hk
    have hb : isBlock (s0.cell a).tag := by
      unfold size at h1
      split at h1
      · assumption
      · split at h1
        · exact absurd (h2 ‹_›) h0
        · omega
    have hlt : (k : Int) - 1 < (s0.cell a).car := by
      simp only [size, hb, if_true] at h1
      omega
    have hp := hs.plain a ha hb (k - 1) (by omega)
    simp only [src, if_neg h0]
    refine ⟨?_, fun _ => ⟨hb, hlt, hp⟩⟩
    rcases hp with h | h | h <;> rw [h] <;> simp

theorem src_reach (hs : Sound s0) {base : Int} {L : List Int} {a : Int} {k : Nat} (ha : Reach s0 a) (hk : Slot s0 a k) :
    (refCar (src s0 base L a k).tag → Reach s0 (src s0 base L a k).car) ∧
    (refCdr (src s0 base L a k).tag → Reach s0 (src s0 base L a k).cdr) := by
  obtain ⟨h1, h2⟩ := src_tag hs (base := base) (L := L) ha hk
  by_cases h0 : k = 0
  · subst h0
    simp only [src, if_true]
    refine ⟨fun h => .car ha h, fun h => ?_⟩
    have : isBlock (s0.cell a).tag = false := by revert h; cases (s0.cell a).tag <;> simp [refCdr, isBlock]
    simp only [this, Bool.false_eq_true, if_false]
    exact .cdr ha h
  · obtain ⟨h3, h4, h5⟩ := h2 h0
    simp only [src, if_neg h0] at h5 ⊢
    rcases h5 with h | h | h
    · rw [h]
      exact ⟨fun _ => .element ha h3 (by omega) h, by simp [refCdr]⟩
    · rw [h]; simp [refCar, refCdr]
    · rw [h]; simp [refCar, refCdr]

theorem refCar_iff {t : Tag} : refCar t = true ↔ t = .macro ∨ t = .pair ∨ t = .ref ∨ t = .variable := by
  cases t <;> simp [refCar]
theorem refCdr_iff {t : Tag} : refCdr t = true ↔ t = .closure ∨ t = .continuation ∨ t = .keyword ∨ t = .macro ∨ t = .pair ∨
    t = .port ∨ t = .special ∨ t = .string ∨ t = .symbol ∨ t = .values := by
  cases t <;> simp [refCdr]

/-- A word of the cell being scanned. -/
theorem gcScanCar_ok {s : St} {base p : Int} {L : List Int} (hx : Ctx s0 base)
    (hI : Inv s0 base L p (· = p) s) (hp : base ≤ p) (hp' : p < s.free)
    (hr : refCar (s.cell p).tag → Reach s0 (s.cell p).car) :
    ∃ L' s', gcScanCar s p (s.cell p).tag = ok s' ∧ (∃ M, L' = L ++ M) ∧ Inv s0 base L' p (· = p) s' ∧ s.free ≤ s'.free ∧
      s'.cell p = { s.cell p with car := if refCar (s.cell p).tag then base + off s0 L' (s.cell p).car else (s.cell p).car } ∧
      (refCar (s.cell p).tag → (s.cell p).car ∈ L') ∧ Regs s s' := by
  have hf := hI.free
  have hfl : s.free ≤ s.limit := by
    have h1 := hx.space
    have h2 := hI.limit
    have h3 := total_le (s0 := s0) hI.nodup (fun x hx' => (mem_live hx.sound).2 (hI.reach x hx'))
    rw [← total_live] at h3
    omega
  have hbase : 3 ≤ base := by
    have := hx.sound.base
    have := hx.above
    simp only [c_symbol_max] at *
    omega
  unfold gcScanCar
  by_cases h : refCar (s.cell p).tag
  · rw [if_pos (refCar_iff.1 h)]
    obtain ⟨s', g1, g2, g3, g4, g5⟩ := gcCopy_ok hx hI (hr h) (Int.le_of_lt hp') (by rintro x rfl; exact hp')
    refine ⟨ins L (s.cell p).car, s'.upd p { s.cell p with car := base + off s0 (ins L (s.cell p).car) (s.cell p).car },
      ?_, ins_prefix _ _, g2.put hx hp rfl _, g3, ?_, fun _ => mem_ins _ _, g5.trans (Regs.upd _ _ _)⟩
    · rw [rdRaw_ok (by omega) (by omega), ok_bind, g1]
      simp only [ok_bind]
      rw [rdRaw_ok (by omega) (by rw [g5.limit]; omega), ok_bind, putRaw_ok (by omega) (by rw [g5.limit]; omega), g4 p hp hp']
    · rw [upd_cell, if_pos rfl, if_pos h]
  · rw [if_neg (fun h' => h (refCar_iff.2 h'))]
    refine ⟨L, s, rfl, ⟨[], by simp⟩, hI, Int.le_refl _, by simp [h], fun h' => absurd h' h, Regs.refl s⟩

theorem gcScanCdr_ok {s : St} {base p : Int} {L : List Int} (hx : Ctx s0 base)
    (hI : Inv s0 base L p (· = p) s) (hp : base ≤ p) (hp' : p < s.free)
    (hr : refCdr (s.cell p).tag → Reach s0 (s.cell p).cdr) :
    ∃ L' s', gcScanCdr s p (s.cell p).tag = ok s' ∧ (∃ M, L' = L ++ M) ∧ Inv s0 base L' p (· = p) s' ∧ s.free ≤ s'.free ∧
      s'.cell p = { s.cell p with cdr := if refCdr (s.cell p).tag then base + off s0 L' (s.cell p).cdr else (s.cell p).cdr } ∧
      (refCdr (s.cell p).tag → (s.cell p).cdr ∈ L') ∧ Regs s s' := by
  have hf := hI.free
  have hfl : s.free ≤ s.limit := by
    have h1 := hx.space
    have h2 := hI.limit
    have h3 := total_le (s0 := s0) hI.nodup (fun x hx' => (mem_live hx.sound).2 (hI.reach x hx'))
    rw [← total_live] at h3
    omega
  have hbase : 3 ≤ base := by
    have := hx.sound.base
    have := hx.above
    simp only [c_symbol_max] at *
    omega
  unfold gcScanCdr
  by_cases h : refCdr (s.cell p).tag
  · rw [if_pos (refCdr_iff.1 h)]
    obtain ⟨s', g1, g2, g3, g4, g5⟩ := gcCopy_ok hx hI (hr h) (Int.le_of_lt hp') (by rintro x rfl; exact hp')
    refine ⟨ins L (s.cell p).cdr, s'.upd p { s.cell p with cdr := base + off s0 (ins L (s.cell p).cdr) (s.cell p).cdr },
      ?_, ins_prefix _ _, g2.put hx hp rfl _, g3, ?_, fun _ => mem_ins _ _, g5.trans (Regs.upd _ _ _)⟩
    · rw [rdRaw_ok (by omega) (by omega), ok_bind, g1]
      simp only [ok_bind]
      rw [rdRaw_ok (by omega) (by rw [g5.limit]; omega), ok_bind, putRaw_ok (by omega) (by rw [g5.limit]; omega), g4 p hp hp']
    · rw [upd_cell, if_pos rfl, if_pos h]
  · rw [if_neg (fun h' => h (refCdr_iff.2 h'))]
    refine ⟨L, s, rfl, ⟨[], by simp⟩, hI, Int.le_refl _, by simp [h], fun h' => absurd h' h, Regs.refl s⟩

/-- `p` is the address of a copied cell, or the end. -/
def AtSlot (s0 : St) (base : Int) (L : List Int) (p : Int) : Prop :=
  p = base + total s0 L ∨ ∃ a ∈ L, ∃ k, Slot s0 a k ∧ p = base + off s0 L a + k

/-- The number of cells from this copied cell to the next. -/
def stride (s0 : St) (a : Int) : Nat := if (s0.cell a).tag = .bytes then size s0 a else 1

theorem AtSlot.next {base : Int} {L : List Int} (hn : L.Nodup) {a : Int} {k : Nat} (ha : a ∈ L) (hk : Slot s0 a k) :
    AtSlot s0 base L (base + off s0 L a + k + stride s0 a) := by
  have hsz := size_pos s0 a
  unfold stride
  have hend : AtSlot s0 base L (base + off s0 L a + size s0 a) := by
    rcases off_next (s0 := s0) hn ha with h | ⟨b, hb, h⟩
    · exact .inl (by omega)
    · exact .inr ⟨b, hb, 0, ⟨size_pos s0 b, fun _ => rfl⟩, by simp; omega⟩
  split
  · rename_i hby
    rw [hk.2 hby]
    simpa using hend
  · rename_i hby
    rcases Nat.lt_or_ge (k + 1) (size s0 a) with h | h
    · exact .inr ⟨a, ha, k + 1, ⟨h, fun h => absurd h hby⟩, by simp; omega⟩
    · have h1 := hk.1
      have : k + 1 = size s0 a := by omega
      have e : base + off s0 L a + k + ((1 : Nat) : Int) = base + off s0 L a + size s0 a := by omega
      rw [e]; exact hend

/-- No copied cell lies between this one and the next. -/
theorem slot_between {base : Int} {L : List Int} {a b : Int} {k j : Nat} (ha : a ∈ L) (hk : Slot s0 a k) (hb : b ∈ L)
    (hj : Slot s0 b j) (h : base + off s0 L b + j < base + off s0 L a + k + stride s0 a) :
    base + off s0 L b + j < base + off s0 L a + k ∨ base + off s0 L b + j = base + off s0 L a + k := by
  have h1 := hk.1
  have h2 := hj.1
  unfold stride at h
  split at h
  · rename_i hby
    by_cases hab : b = a
    · subst hab
      have := hk.2 hby
      have := hj.2 hby
      omega
    · have := hk.2 hby
      have := off_disjoint (s0 := s0) ha hb (Ne.symm hab)
      omega
  · omega

/-- The cell being scanned is done. -/
theorem Inv.finish {s : St} {base : Int} {L : List Int} {a : Int} {k : Nat} (ha : a ∈ L) (hk : Slot s0 a k)
    (hI : Inv s0 base L (base + off s0 L a + k) (· = base + off s0 L a + k) s)
    (hc : s.cell (base + off s0 L a + k) = reloc s0 base L (src s0 base L a k))
    (h1 : refCar (src s0 base L a k).tag → (src s0 base L a k).car ∈ L)
    (h2 : refCdr (src s0 base L a k).tag → (src s0 base L a k).cdr ∈ L) :
    Inv s0 base L (base + off s0 L a + k + stride s0 a) (fun _ => False) s := by
  have huniq : ∀ b ∈ L, ∀ j, Slot s0 b j → base + off s0 L b + j = base + off s0 L a + k → b = a ∧ j = k := by
    intro b hb j hj h
    have h3 := hj.1
    have h4 := hk.1
    by_cases hab : b = a
    · subst hab; exact ⟨rfl, by omega⟩
    · have := off_disjoint (s0 := s0) ha hb (Ne.symm hab)
      omega
  have hst : 0 < stride s0 a := by
    unfold stride
    split
    · exact size_pos s0 a
    · omega
  refine ⟨hI.nodup, hI.reach, hI.free, hI.limit, hI.zero, hI.old, hI.fwd, fun b hb j hj _ => ?_, fun b hb j hj hlt _ => ?_⟩
  · by_cases he : base + off s0 L b + j = base + off s0 L a + k
    · obtain ⟨rfl, rfl⟩ := huniq b hb j hj he
      rw [hc, if_pos (by omega)]
    · rw [hI.new b hb j hj he]
      by_cases hlt : base + off s0 L b + j < base + off s0 L a + k
      · rw [if_pos hlt, if_pos (by omega)]
      · rw [if_neg hlt, if_neg]
        intro h
        rcases slot_between ha hk hb hj h with h | h
        · exact hlt h
        · exact he h
  · rcases slot_between ha hk hb hj hlt with h | h
    · exact hI.closed b hb j hj h (by omega)
    · obtain ⟨rfl, rfl⟩ := huniq b hb j hj h
      exact ⟨h1, h2⟩

theorem gcLoop_ok {base : Int} (hx : Ctx s0 base) : ∀ (fuel : Nat) (s : St) (p : Int) (L : List Int),
    Inv s0 base L p (fun _ => False) s → AtSlot s0 base L p → base ≤ p → base + liveSize s0 - p < fuel →
    ∃ L' s', gcLoop fuel s p = ok s' ∧ (∃ M, L' = L ++ M) ∧ Inv s0 base L' s'.free (fun _ => False) s' ∧ Regs s s'
  | 0, s, p, L, hI, hp, hb, hf => by
    have h3 := total_le (s0 := s0) hI.nodup (fun x hx' => (mem_live hx.sound).2 (hI.reach x hx'))
    rw [← total_live] at h3
    exfalso
    rcases hp with h | ⟨a, ha, k, hk, h⟩
    · simp at hf; omega
    · have := off_le (s0 := s0) ha
      have := hk.1
      simp at hf; omega
  | fuel + 1, s, p, L, hI, hp, hb, hf => by
    have h3 := total_le (s0 := s0) hI.nodup (fun x hx' => (mem_live hx.sound).2 (hI.reach x hx'))
    rw [← total_live] at h3
    have hfree := hI.free
    have hlim := hI.limit
    have hspace := hx.space
    have hbase : 3 ≤ base := by
      have := hx.sound.base
      have := hx.above
      simp only [c_symbol_max] at *
      omega
    rcases hp with h | ⟨a, ha, k, hk, h⟩
    · refine ⟨L, s, ?_, ⟨[], by simp⟩, by rw [hfree, ← h]; exact hI, Regs.refl s⟩
      rw [gcLoop, if_neg (by omega)]
    · have hoff := off_le (s0 := s0) ha
      have hk1 := hk.1
      have hps : p < s.free := by omega
      have hcell : s.cell p = src s0 base L a k := by
        rw [h, hI.new a ha k hk id, if_neg (by omega)]
      have hreach := hI.reach a ha
      obtain ⟨ht1, -⟩ := src_tag hx.sound (base := base) (L := L) hreach hk
      obtain ⟨hr1, hr2⟩ := src_reach hx.sound (base := base) (L := L) hreach hk
      rw [gcLoop, if_pos hps, rdRaw_ok (by omega) (by omega), ok_bind, if_neg (by rw [hcell]; exact ht1)]
      obtain ⟨L1, s1, a1, ⟨M1, a2⟩, a3, a4, a5, a6, a7⟩ := gcScanCar_ok hx (hI.hole (· = p)) hb hps (by rw [hcell]; exact hr1)
      rw [a1, ok_bind]
      have htag : (s1.cell p).tag = (s.cell p).tag := by rw [a5]
      have hcdr : (s1.cell p).cdr = (s.cell p).cdr := by rw [a5]
      rw [← htag]
      obtain ⟨L2, s2, b1, ⟨M2, b2⟩, b3, b4, b5, b6, b7⟩ := gcScanCdr_ok hx a3 hb (by omega) (by
        rw [htag, hcdr, hcell]; exact hr2)
      rw [b1, ok_bind]
      subst a2
      subst b2
      have hmem : a ∈ L ++ M1 ++ M2 := List.mem_append_left _ (List.mem_append_left _ ha)
      have hoff2 : off s0 (L ++ M1 ++ M2) a = off s0 L a := by
        rw [List.append_assoc, off_append ha]
      have hsrc : src s0 base (L ++ M1 ++ M2) a k = src s0 base L a k := by simp only [src, hoff2]
      have hp2 : p = base + off s0 (L ++ M1 ++ M2) a + k := by rw [hoff2]; exact h
      rw [hcdr, htag] at b6
      rw [hcell] at a6 b6
      have hfin : s2.cell p = reloc s0 base (L ++ M1 ++ M2) (src s0 base (L ++ M1 ++ M2) a k) := by
        rw [b5, a5, hcell, hsrc]
        unfold reloc
        simp only
        congr 1
        split
        · rw [off_append (a6 ‹_›)]
        · rfl
      have hb3' : Inv s0 base (L ++ M1 ++ M2) (base + off s0 (L ++ M1 ++ M2) a + k)
          (· = base + off s0 (L ++ M1 ++ M2) a + k) s2 := hp2 ▸ b3
      have hI2 := Inv.finish hmem hk hb3' (hp2 ▸ hfin)
        (by rw [hsrc]; exact fun h => List.mem_append_left _ (a6 h)) (by rw [hsrc]; exact b6)
      have hnext := AtSlot.next (base := base) hb3'.nodup hmem hk
      rw [← hp2] at hI2 hnext
      have hst : 0 < stride s0 a := by
        unfold stride
        split
        · exact size_pos s0 a
        · omega
      obtain ⟨L3, s3, c1, ⟨M3, c2⟩, c3, c4⟩ := gcLoop_ok hx fuel s2 (p + stride s0 a) _ hI2 hnext (by omega) (by omega)
      refine ⟨L3, s3, ?_, ⟨M1 ++ M2 ++ M3, by rw [c2]; simp⟩, c3, a7.trans (b7.trans c4)⟩
      rw [← c1, htag, hcell]
      by_cases hby : (src s0 base L a k).tag = .bytes
      · have hk0 : k = 0 := by
          rcases Decidable.em (k = 0) with h0 | h0
          · exact h0
          · obtain ⟨-, hh⟩ := src_tag hx.sound (base := base) (L := L) hreach hk
            rcases (hh h0).2.2 with h' | h' | h' <;> rw [h'] at hby <;> cases hby
        subst hk0
        have hby' : (s0.cell a).tag = .bytes := by simpa [src] using hby
        have hcar : (s2.cell p).car = (s0.cell a).bytes.length := by
          rw [hfin, hsrc]
          simp only [reloc, hby, refCar, Bool.false_eq_true, if_false]
          simp only [src, if_true]
          exact hx.sound.bytes a hreach hby'
        have hsize : (size s0 a : Int) = bytesCells (s0.cell a).bytes.length := by
          unfold size
          rw [if_neg (by rw [hby']; simp [isBlock]), if_pos hby']
          unfold bytesCells
          omega
        rw [if_pos hby, rdRaw_ok (by omega) (by rw [(a7.trans b7).limit]; omega), ok_bind, hcar]
        simp only [stride, hby', if_true, hsize, Int.toNat_natCast]
      · have hst1 : stride s0 a = 1 := by
          unfold stride
          split
          · rename_i hby'
            have := hk.2 hby'
            subst this
            exact absurd (by simpa [src] using hby') hby
          · rfl
        rw [if_neg hby, hst1]
        rfl

end Mes.Gc
