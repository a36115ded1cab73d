import Verif.Proof.Gc
/-
The whole collection.
-/
namespace Mes.Gc
open Res Spec

variable {s0 : St}

/-! ### The roots -/

def fixedList (n : Nat) : List Int := (List.range n).map (fun i : Nat => c_nil + (i : Int))

theorem fixedList_succ (n : Nat) : fixedList (n + 1) = fixedList n ++ [c_nil + (n : Int)] := by
  simp [fixedList, List.range_succ]

theorem mem_fixedList {n : Nat} {a : Int} : a ∈ fixedList n ↔ c_nil ≤ a ∧ a < c_nil + n := by
  simp only [fixedList, List.mem_map, List.mem_range]
  constructor
  · rintro ⟨i, h, rfl⟩; omega
  · intro h; exact ⟨(a - c_nil).toNat, by omega, by omega⟩

theorem fixed_tag (hs : Sound s0) {a : Int} (h : c_nil ≤ a) (h' : a < c_symbol_max) :
    (s0.cell a).tag = .special ∨ (s0.cell a).tag = .symbol := by
  have := hs.fixed a h h'
  rw [this]
  split <;> simp

theorem fixed_size (hs : Sound s0) {a : Int} (h : c_nil ≤ a) (h' : a < c_symbol_max) : size s0 a = 1 := by
  unfold size
  rcases fixed_tag hs h h' with h | h <;> rw [h] <;> simp [isBlock]

theorem total_fixed (hs : Sound s0) : ∀ n : Nat, n ≤ 113 → total s0 (fixedList n) = n
  | 0, _ => rfl
  | n + 1, h => by
    rw [fixedList_succ, total_append, total_fixed hs n (by omega)]
    simp only [total]
    rw [fixed_size hs (by omega) (by simp only [c_symbol_max, c_nil]; omega)]

theorem off_fixed (hs : Sound s0) : ∀ (n : Nat) (M : List Int), n ≤ 113 → ∀ i : Nat, i < n →
    off s0 (fixedList n ++ M) (c_nil + i) = i
  | 0, _, _, i, h => by omega
  | n + 1, M, hn, i, h => by
    rw [fixedList_succ, List.append_assoc]
    rcases Nat.lt_or_ge i n with h' | h'
    · exact off_fixed hs n _ (by omega) i h'
    · obtain rfl : i = n := by omega
      rw [List.singleton_append, off_new (by rw [mem_fixedList]; omega), total_fixed hs i (by omega)]

theorem Regs.symbols {s s' : St} (h : Regs s s') : s'.symbols = s.symbols := by rw [← h]
theorem Regs.macros {s s' : St} (h : Regs s s') : s'.macros = s.macros := by rw [← h]
theorem Regs.ports {s s' : St} (h : Regs s s') : s'.ports = s.ports := by rw [← h]
theorem Regs.m0 {s s' : St} (h : Regs s s') : s'.m0 = s.m0 := by rw [← h]
theorem Regs.stack {s s' : St} (h : Regs s s') : s'.stack = s.stack := by rw [← h]
theorem Regs.sp {s s' : St} (h : Regs s s') : s'.sp = s.sp := by rw [← h]
theorem Regs.stackSize {s s' : St} (h : Regs s s') : s'.stackSize = s.stackSize := by rw [← h]
theorem Regs.arena {s s' : St} (h : Regs s s') : s'.arena = s.arena := by rw [← h]
theorem Regs.safety {s s' : St} (h : Regs s s') : s'.safety = s.safety := by rw [← h]
theorem Regs.maxString {s s' : St} (h : Regs s s') : s'.maxString = s.maxString := by rw [← h]
theorem Regs.continuations {s s' : St} (h : Regs s s') : s'.continuations = s.continuations := by rw [← h]

theorem gcInitNews_ok {s : St} (hs : Sound s) (hspace : s.free + 2 + liveSize s ≤ s.limit) :
    ∃ s', gcInitNews s = ok (s.free + 1, s') ∧ Regs s s' ∧ s'.free = s.free ∧
      Inv s (s.free + 2) [] (s.free + 2) (fun _ => False) { s' with free := s.free + 2 } := by
  have hb := hs.base
  simp only [c_symbol_max] at hb
  refine ⟨(s.upd s.free { tag := .vector, car := (s.cell 1).car, cdr := s.free + 1 }).upd (s.free + 1)
    { s.cell (s.free + 1) with tag := .char, cdr := 110 }, ?_, rfl, rfl, ?_⟩
  · rw [gcInitNews, rdRaw_ok (by omega) (by omega), ok_bind, putRaw_ok (by omega) (by omega), ok_bind]
    rw [show (s.upd s.free { tag := .vector, car := (s.cell 1).car, cdr := s.free + 1 }).free = s.free from rfl]
    rw [rdRaw_ok (by omega) (by show s.free + 1 < s.limit; omega), ok_bind,
      putRaw_ok (by omega) (by show s.free + 1 < s.limit; omega), ok_bind, upd_cell, if_neg (by omega)]
    rfl
  · refine ⟨by simp, by simp, by simp [total], rfl, ?_, fun a h1 h2 => ?_, by simp, by simp, by simp⟩
    · show (St.cell (St.upd _ _ _) _).tag = _
      rw [upd_cell, if_pos (by omega)]
    · show St.cell (St.upd _ _ _) _ = _
      rw [upd_cell, if_neg (by omega), upd_cell, if_neg (by omega)]

theorem gcCopyFixed_ok {base : Int} (hx : Ctx s0 base) : ∀ (n j : Nat) (s : St), j + n = 113 →
    Inv s0 base (fixedList j) base (fun _ => False) s → 
    ∃ s', gcCopyFixed n s (c_nil + j) = ok s' ∧ Inv s0 base (fixedList 113) base (fun _ => False) s' ∧ Regs s s'
  | 0, j, s, hj, hI => ⟨s, rfl, by rw [← hj]; exact hI, Regs.refl s⟩
  | n + 1, j, s, hj, hI => by
    have hf := hI.free
    obtain ⟨s1, g1, g2, g3, g4, g5⟩ := gcCopy_ok hx hI (a := c_nil + j)
      (.root (.fixed (by omega) (by simp only [c_symbol_max, c_nil]; omega))) (by omega) (by simp)
    have hins : ins (fixedList j) (c_nil + j) = fixedList (j + 1) := by
      rw [ins, if_neg (by rw [mem_fixedList]; omega), fixedList_succ]
    rw [hins] at g1 g2
    obtain ⟨s2, h1, h2, h3⟩ := gcCopyFixed_ok hx n (j + 1) s1 (by omega) g2
    refine ⟨s2, ?_, h2, g5.trans h3⟩
    rw [gcCopyFixed, g1]
    simp only [ok_bind]
    rw [← h1]
    congr 1

/-- Apart from memory and stack the two states agree. -/
def RegsS (s s' : St) : Prop := { s' with cell := s.cell, free := s.free, stack := s.stack } = s

theorem Regs.toS {s s' : St} (h : Regs s s') : RegsS s s' := by
  cases s; cases s'
  simp only [Regs, RegsS, St.mk.injEq] at *
  simp [h]
theorem RegsS.trans {s s1 s2 : St} (h : RegsS s s1) (h' : RegsS s1 s2) : RegsS s s2 := by
  cases s; cases s1; cases s2
  simp only [RegsS, St.mk.injEq] at *
  simp [h, h']

theorem gcCopyStack_ok {base : Int} (hx : Ctx s0 base) : ∀ (n : Nat) (i : Int) (s : St) (L : List Int),
    Inv s0 base L base (fun _ => False) s → (∀ j, i ≤ j → j < i + n → Reach s0 (s.stack j)) →
    ∃ L' s', gcCopyStack n s i = ok s' ∧ (∃ M, L' = L ++ M) ∧ Inv s0 base L' base (fun _ => False) s' ∧ RegsS s s' ∧
      (∀ j, i ≤ j → j < i + n → s.stack j ∈ L' ∧ s'.stack j = base + off s0 L' (s.stack j)) ∧
      (∀ j, ¬ (i ≤ j ∧ j < i + n) → s'.stack j = s.stack j)
  | 0, i, s, L, hI, hr => ⟨L, s, rfl, ⟨[], by simp⟩, hI, rfl, by intro j h1 h2; simp at h2; omega, fun _ _ => rfl⟩
  | n + 1, i, s, L, hI, hr => by
    have hf := hI.free
    obtain ⟨s1, g1, g2, g3, g4, g5⟩ := gcCopy_ok hx hI (a := s.stack i) (hr i (by omega) (by omega)) (by omega) (by simp)
    have hst := g5.stack
    obtain ⟨L2, s2, h1, ⟨M2, h2⟩, h3, h4, h5, h6⟩ := gcCopyStack_ok hx n (i + 1)
      { s1 with stack := fun j => if j = i then base + off s0 (ins L (s.stack i)) (s.stack i) else s1.stack j } _
      (g2.regs rfl rfl rfl) (fun j hj1 hj2 => by
        simp only
        rw [if_neg (by omega), hst]
        exact hr j (by omega) (by omega))
    obtain ⟨M1, hM1⟩ := ins_prefix L (s.stack i)
    refine ⟨L2, s2, ?_, ⟨M1 ++ M2, by rw [h2, hM1]; simp⟩, h3, ?_, fun j hj1 hj2 => ?_, fun j hj => ?_⟩
    · rw [gcCopyStack, g1]
      exact h1
    · refine g5.toS.trans (RegsS.trans ?_ h4)
      rfl
    · by_cases hji : j = i
      · subst hji
        have := h6 j (by omega)
        simp only [if_true] at this
        rw [this, h2, off_append (mem_ins _ _)]
        exact ⟨List.mem_append_left _ (mem_ins _ _), rfl⟩
      · have := h5 j (by omega) (by omega)
        simp only [if_neg hji, hst] at this
        exact this
    · rw [h6 j (by omega)]
      simp only
      rw [if_neg (by omega), hst]

/-! ### Moving back -/

theorem shift_tag (d : Int) (c : Cell) : (gcShift d c).tag = c.tag := rfl

theorem gcCellcpy_ok {base : Int} (hx : Ctx s0 base) {s : St} {L : List Int} (hI : Inv s0 base L s.free (fun _ => False) s) :
    ∀ (fuel : Nat) (p : Nat) (t : St), AtSlot s0 base L (base + p) → t.limit = s0.limit →
    (∀ x, base + p ≤ x → t.cell x = s.cell x) → total s0 L - p < fuel →
    ∃ t', gcCellcpy fuel t (3 + p) (base + p) (total s0 L - p) = ok t' ∧ t'.free = t.free ∧ Regs t t' ∧
      (∀ x : Int, x < 3 + p → t'.cell x = t.cell x) ∧
      (∀ a ∈ L, ∀ k, Slot s0 a k → p ≤ off s0 L a + k →
        t'.cell (3 + off s0 L a + k) = gcShift (base - 3) (s.cell (base + off s0 L a + k)))
  | 0, p, t, hp, hl, hc, hf => absurd hf (by omega)
  | fuel + 1, p, t, hp, hl, hc, hf => by
    have hfree := hI.free
    have habove := hx.above
    have hsb := hx.sound.base
    simp only [c_symbol_max] at hsb
    have h3 := total_le (s0 := s0) hI.nodup (fun x hx' => (mem_live hx.sound).2 (hI.reach x hx'))
    rw [← total_live] at h3
    have hspace := hx.space
    rcases hp with h | ⟨a, ha, k, hk, h⟩
    · refine ⟨t, ?_, rfl, Regs.refl t, fun _ _ => rfl, fun a ha k hk hle => ?_⟩
      · rw [gcCellcpy, if_pos (by omega)]
      · have := off_le (s0 := s0) ha
        have := hk.1
        omega
    · have hoff := off_le (s0 := s0) ha
      have hk1 := hk.1
      have hreach := hI.reach a ha
      have hcell : t.cell (base + p) = reloc s0 base L (src s0 base L a k) := by
        rw [hc _ (Int.le_refl _), h, hI.new a ha k hk id, if_pos (by omega)]
      obtain ⟨ht1, ht2⟩ := src_tag hx.sound (base := base) (L := L) hreach hk
      have htag : (t.cell (base + p)).tag = (src s0 base L a k).tag := by rw [hcell]; rfl
      have hst : 0 < stride s0 a := by
        unfold stride
        split
        · exact size_pos s0 a
        · omega
      have hnext := AtSlot.next (base := base) hI.nodup ha hk
      have hstle : p + stride s0 a ≤ total s0 L := by
        unfold stride
        split
        · have := hk.2 ‹_›
          omega
        · omega
      obtain ⟨t', g1, g2, g3, g4, g5⟩ := gcCellcpy_ok hx hI fuel (p + stride s0 a)
        (t.upd (3 + p) (gcShift (base - 3) (t.cell (base + p))))
        (by
          have e : base + ((p + stride s0 a : Nat) : Int) = base + off s0 L a + k + stride s0 a := by omega
          rw [e]; exact hnext)
        hl (fun x hx' => by rw [upd_cell, if_neg (by omega), hc x (by omega)]) (by omega)
      refine ⟨t', ?_, g2, (Regs.upd _ _ _).trans g3, fun x hx' => ?_, fun b hb j hj hle => ?_⟩
      · rw [gcCellcpy, if_neg (by omega), rdRaw_ok (by omega) (by omega), ok_bind, if_neg (by rw [htag]; exact ht1), htag]
        have e1 : base + (p : Int) - (3 + p) = base - 3 := by omega
        rw [e1, putRaw_ok (by omega) (by omega)]
        by_cases hby : (src s0 base L a k).tag = .bytes
        · have hk0 : k = 0 := by
            rcases Decidable.em (k = 0) with h0 | h0
            · exact h0
            · rcases (ht2 h0).2.2 with h' | h' | h' <;> rw [h'] at hby <;> cases hby
          subst hk0
          have hby' : (s0.cell a).tag = .bytes := by simpa [src] using hby
          have hlen := hx.sound.bytes a hreach hby'
          have hcar : (t.cell (base + p)).car = (s0.cell a).bytes.length := by
            rw [hcell]
            simp only [reloc, hby, refCar, Bool.false_eq_true, if_false]
            simp only [src, if_true]
            exact hlen
          have hbytes : (t.cell (base + p)).bytes = (s0.cell a).bytes := by
            rw [hcell]
            simp [reloc, src, hby']
          have hsize : (size s0 a : Int) = bytesCells (s0.cell a).bytes.length := by
            unfold size
            rw [if_neg (by rw [hby']; simp [isBlock]), if_pos hby']
            unfold bytesCells
            omega
          have hend : a + size s0 a ≤ s0.free := by
            have h1 := size_pos s0 a
            have := hx.sound.inside a hreach (a + size s0 a - 1) (.inr (.inr ⟨hby', by omega, by omega⟩))
            omega
          have hst' : (stride s0 a : Int) = bytesCells (s0.cell a).bytes.length := by
            simp only [stride, hby', if_true]; exact hsize
          have hina := hx.sound.inside a hreach a (.inl rfl)
          simp only [c_nil] at hina
          rw [if_pos hby, ubUnless_true ⟨by omega, by rw [hcar, hbytes]; simp, by rw [hcar, Int.toNat_natCast]; omega⟩]
          simp only [ok_bind, hcar, Int.toNat_natCast]
          rw [← g1, ← hst']
          congr 1 <;> omega
        · have hst1 : stride s0 a = 1 := by
            unfold stride
            split
            · rename_i hby'
              have := hk.2 hby'
              subst this
              exact absurd (by simpa [src] using hby') hby
            · rfl
          rw [if_neg hby, ok_bind, ← g1, hst1]
          congr 1 <;> omega
      · rw [g4 x (by omega), upd_cell, if_neg (by omega)]
      · by_cases he : off s0 L b + j = p
        · rw [show (3 : Int) + off s0 L b + j = 3 + p by omega, g4 _ (by omega), upd_cell, if_pos rfl,
            show base + (off s0 L b : Int) + j = base + p by omega, hc _ (Int.le_refl _)]
        · refine g5 b hb j hj ?_
          rcases Nat.lt_or_ge (off s0 L b + j) (p + stride s0 a) with hlt | hge
          · exfalso
            rcases slot_between (base := base) ha hk hb hj (by omega) with h' | h' <;> omega
          · exact hge

/-! ### The collection proper -/

/-- What `gc_` leaves alone. -/
def RegsG (s s' : St) : Prop :=
  { s' with
    cell := s.cell, free := s.free, stack := s.stack, symbols := s.symbols, macros := s.macros, ports := s.ports, m0 := s.m0
    jam := s.jam } = s

theorem RegsS.toG {s s' : St} (h : RegsS s s') : RegsG s s' := by
  cases s; cases s'
  simp only [RegsS, RegsG, St.mk.injEq] at *
  simp [h]
theorem RegsG.trans {s s1 s2 : St} (h : RegsG s s1) (h' : RegsG s1 s2) : RegsG s s2 := by
  cases s; cases s1; cases s2
  simp only [RegsG, St.mk.injEq] at *
  simp [h, h']

theorem RegsS.symbols {s s' : St} (h : RegsS s s') : s'.symbols = s.symbols := by rw [← h]
theorem RegsS.macros {s s' : St} (h : RegsS s s') : s'.macros = s.macros := by rw [← h]
theorem RegsS.ports {s s' : St} (h : RegsS s s') : s'.ports = s.ports := by rw [← h]
theorem RegsS.m0 {s s' : St} (h : RegsS s s') : s'.m0 = s.m0 := by rw [← h]
theorem RegsS.sp {s s' : St} (h : RegsS s s') : s'.sp = s.sp := by rw [← h]
theorem RegsS.stackSize {s s' : St} (h : RegsS s s') : s'.stackSize = s.stackSize := by rw [← h]
theorem RegsS.limit {s s' : St} (h : RegsS s s') : s'.limit = s.limit := by rw [← h]

theorem mem_off {base : Int} {L M : List Int} {a : Int} (h : a ∈ L) {x : Int} (hx : x = base + off s0 L a) :
    a ∈ L ++ M ∧ x = base + off s0 (L ++ M) a := ⟨List.mem_append_left _ h, by rw [off_append h, hx]⟩

/-- The state after all copying. -/
structure Copied (s0 : St) (base : Int) (L : List Int) (s : St) : Prop where
  inv : Inv s0 base L base (fun _ => False) s
  fixed : ∃ M, L = fixedList 113 ++ M
  symbols : s0.symbols ∈ L ∧ s.symbols = base + off s0 L s0.symbols
  macros : s0.macros ∈ L ∧ s.macros = base + off s0 L s0.macros
  ports : s0.ports ∈ L ∧ s.ports = base + off s0 L s0.ports
  m0 : s0.m0 ∈ L ∧ s.m0 = base + off s0 L s0.m0
  stack : ∀ j, s0.sp ≤ j → j < s0.stackSize → s0.stack j ∈ L ∧ s.stack j = base + off s0 L (s0.stack j)
  above : ∀ j, ¬ (s0.sp ≤ j ∧ j < s0.stackSize) → s.stack j = s0.stack j
  regs : RegsG s0 s

theorem gcRoots_ok (hs : Sound s0) (hspace : s0.free + 2 + liveSize s0 ≤ s0.limit) :
    ∃ s', gcInitNews s0 = ok (s0.free + 1, s') ∧ ∃ L s'', (∀ k : St → Res St, (do
      let s := { s' with free := s0.free + 1 + 1 }
      let s ← gcCopyFixed (c_symbol_max - c_nil).toNat s c_nil
      let (x, s) ← gcCopy s s.symbols
      let s := { s with symbols := x }
      let (x, s) ← gcCopy s s.macros
      let s := { s with macros := x }
      let (x, s) ← gcCopy s s.ports
      let s := { s with ports := x }
      let (x, s) ← gcCopy s s.m0
      let s := { s with m0 := x }
      let s ← gcCopyStack (s.stackSize - s.sp).toNat s s.sp
      k s) = k s'') ∧ Copied s0 (s0.free + 2) L s'' := by
  have hx : Ctx s0 (s0.free + 2) := ⟨hs, by omega, hspace⟩
  have hsp := hs.sp
  obtain ⟨t0, a1, a2, a3, a4⟩ := gcInitNews_ok hs hspace
  refine ⟨t0, a1, ?_⟩
  obtain ⟨t1, b1, b2, b3⟩ := gcCopyFixed_ok hx 113 0 { t0 with free := s0.free + 2 } rfl a4
  have r1 : Regs s0 t1 := by
    refine a2.trans (Regs.trans ?_ b3)
    rfl
  have hfr := b2.free
  obtain ⟨t2, c1, c2, c3, c4, c5⟩ := gcCopy_ok hx b2 (a := s0.symbols) (.root .symbols) (by omega) (by simp)
  have r2 := r1.trans c5
  replace c2 := Inv.regs (s' := { t2 with symbols := s0.free + 2 + off s0 (ins (fixedList 113) s0.symbols) s0.symbols })
    c2 rfl rfl rfl
  generalize hu2 : { t2 with symbols := s0.free + 2 + off s0 (ins (fixedList 113) s0.symbols) s0.symbols } = u2 at *
  have hfr := c2.free
  obtain ⟨t3, d1, d2, d3, d4, d5⟩ := gcCopy_ok hx c2 (a := s0.macros) (.root .macros) (by omega) (by simp)
  replace d2 := Inv.regs (s' := { t3 with macros := s0.free + 2 + off s0 (ins (ins (fixedList 113) s0.symbols) s0.macros) s0.macros })
    d2 rfl rfl rfl
  generalize hu3 : { t3 with macros := s0.free + 2 + off s0 (ins (ins (fixedList 113) s0.symbols) s0.macros) s0.macros } = u3 at *
  have hfr := d2.free
  obtain ⟨t4, e1, e2, e3, e4, e5⟩ := gcCopy_ok hx d2 (a := s0.ports) (.root .ports) (by omega) (by simp)
  replace e2 := Inv.regs (s' := { t4 with ports := s0.free + 2 + off s0 (ins (ins (ins (fixedList 113) s0.symbols) s0.macros) s0.ports) s0.ports })
    e2 rfl rfl rfl
  generalize hu4 : { t4 with ports := s0.free + 2 + off s0 (ins (ins (ins (fixedList 113) s0.symbols) s0.macros) s0.ports) s0.ports } = u4 at *
  have hfr := e2.free
  obtain ⟨t5, f1, f2, f3, f4, f5⟩ := gcCopy_ok hx e2 (a := s0.m0) (.root .m0) (by omega) (by simp)
  replace f2 := Inv.regs (s' := { t5 with m0 := s0.free + 2 + off s0 (ins (ins (ins (ins (fixedList 113) s0.symbols) s0.macros) s0.ports) s0.m0) s0.m0 })
    f2 rfl rfl rfl
  generalize hu5 : { t5 with m0 := s0.free + 2 + off s0 (ins (ins (ins (ins (fixedList 113) s0.symbols) s0.macros) s0.ports) s0.m0) s0.m0 } = u5 at *
  have rg : RegsG s0 u5 := by
    have h2 : RegsG s0 u2 := by
      refine r2.toS.toG.trans ?_
      rw [← hu2]; rfl
    have h3 : RegsG u2 u3 := by
      refine d5.toS.toG.trans ?_
      rw [← hu3]; rfl
    have h4 : RegsG u3 u4 := by
      refine e5.toS.toG.trans ?_
      rw [← hu4]; rfl
    have h5 : RegsG u4 u5 := by
      refine f5.toS.toG.trans ?_
      rw [← hu5]; rfl
    exact h2.trans (h3.trans (h4.trans h5))
  have hstack : u5.stack = s0.stack := by
    rw [← hu5]
    show t5.stack = _
    rw [f5.stack, ← hu4]
    show t4.stack = _
    rw [e5.stack, ← hu3]
    show t3.stack = _
    rw [d5.stack, ← hu2]
    show t2.stack = _
    rw [r2.stack]
  have hss : u5.stackSize = s0.stackSize := by rw [← rg]
  have hspp : u5.sp = s0.sp := by rw [← rg]
  have hfr := f2.free
  obtain ⟨L, t6, g1, ⟨M, g2⟩, g3, g4, g5, g6⟩ := gcCopyStack_ok hx (u5.stackSize - u5.sp).toNat u5.sp u5 _ f2
    (fun j hj1 hj2 => by rw [hstack]; exact .root (.stack (by omega) (by omega)))
  refine ⟨L, t6, ?_, ?_⟩
  · intro k
    rw [show s0.free + 1 + 1 = s0.free + 2 by omega]
    have b1' : gcCopyFixed (c_symbol_max - c_nil).toNat { t0 with free := s0.free + 2 } c_nil = ok t1 := b1
    have hy : t2.macros = s0.macros := r2.macros
    have hy3 : t3.ports = s0.ports := by rw [d5.ports, ← hu2]; exact r2.ports
    have hy4 : t4.m0 = s0.m0 := by
      rw [e5.m0, ← hu3]
      show t3.m0 = _
      rw [d5.m0, ← hu2]; exact r2.m0
    clear hstack rg c2 d2 e2 f2 g3 g5 g6 g4 hss hspp
    subst hu2 hu3 hu4 hu5
    simp only [hy] at d1
    simp only [hy3] at e1
    simp only [hy4] at f1
    simp only at g1
    simp only [b1', ok_bind, r1.symbols, c1, hy, d1, hy3, e1, hy4, f1, g1]
  · obtain ⟨M1, hM1⟩ := ins_prefix (fixedList 113) s0.symbols
    obtain ⟨M2, hM2⟩ := ins_prefix (ins (fixedList 113) s0.symbols) s0.macros
    obtain ⟨M3, hM3⟩ := ins_prefix (ins (ins (fixedList 113) s0.symbols) s0.macros) s0.ports
    obtain ⟨M4, hM4⟩ := ins_prefix (ins (ins (ins (fixedList 113) s0.symbols) s0.macros) s0.ports) s0.m0
    have k1 : t6.symbols = s0.free + 2 + off s0 (ins (fixedList 113) s0.symbols) s0.symbols := by
      rw [g4.symbols, ← hu5]
      show t5.symbols = _
      rw [f5.symbols, ← hu4]
      show t4.symbols = _
      rw [e5.symbols, ← hu3]
      show t3.symbols = _
      rw [d5.symbols, ← hu2]
    have k2 : t6.macros = s0.free + 2 + off s0 (ins (ins (fixedList 113) s0.symbols) s0.macros) s0.macros := by
      rw [g4.macros, ← hu5]
      show t5.macros = _
      rw [f5.macros, ← hu4]
      show t4.macros = _
      rw [e5.macros, ← hu3]
    have k3 : t6.ports = s0.free + 2 + off s0 (ins (ins (ins (fixedList 113) s0.symbols) s0.macros) s0.ports) s0.ports := by
      rw [g4.ports, ← hu5]
      show t5.ports = _
      rw [f5.ports, ← hu4]
    have k4 : t6.m0 = s0.free + 2 + off s0 (ins (ins (ins (ins (fixedList 113) s0.symbols) s0.macros) s0.ports) s0.m0) s0.m0 := by
      rw [g4.m0, ← hu5]
    have n1 := mem_ins (fixedList 113) s0.symbols
    have n2 := mem_ins (ins (fixedList 113) s0.symbols) s0.macros
    have n3 := mem_ins (ins (ins (fixedList 113) s0.symbols) s0.macros) s0.ports
    have n4 := mem_ins (ins (ins (ins (fixedList 113) s0.symbols) s0.macros) s0.ports) s0.m0
    have p4 := mem_off (M := M) n4 k4
    have p3 := mem_off (M := M4 ++ M) n3 k3
    have p2 := mem_off (M := M3 ++ (M4 ++ M)) n2 k2
    have p1 := mem_off (M := M2 ++ (M3 ++ (M4 ++ M))) n1 k1
    rw [← g2] at p4
    rw [← List.append_assoc, ← hM4, ← g2] at p3
    rw [← List.append_assoc, ← hM3, ← List.append_assoc, ← hM4, ← g2] at p2
    rw [← List.append_assoc, ← hM2, ← List.append_assoc, ← hM3, ← List.append_assoc, ← hM4, ← g2] at p1
    refine ⟨g3, ⟨M1 ++ (M2 ++ (M3 ++ (M4 ++ M))), ?_⟩, p1, p2, p3, p4, fun j h1 h2 => ?_, fun j hj => ?_, rg.trans g4.toG⟩
    · rw [← List.append_assoc, ← hM1, ← List.append_assoc, ← hM2, ← List.append_assoc, ← hM3, ← List.append_assoc, ← hM4, ← g2]
    · rw [← hstack]; exact g5 j (by omega) (by omega)
    · rw [← hstack]; exact g6 j (by omega)

/-- What the collection leaves, before the registers are restored. -/
structure Collected (s0 : St) (L : List Int) (s : St) : Prop where
  nodup : L.Nodup
  reach : ∀ a, a ∈ L ↔ Reach s0 a
  fixed : ∃ M, L = fixedList 113 ++ M
  free : s.free = 3 + total s0 L
  zero : (s.cell 2).tag = .char
  cell : ∀ a ∈ L, ∀ k, Slot s0 a k → s.cell (3 + off s0 L a + k) =
    gcShift (s0.free - 1) (reloc s0 (s0.free + 2) L (src s0 (s0.free + 2) L a k))
  symbols : s.symbols = 3 + off s0 L s0.symbols
  macros : s.macros = 3 + off s0 L s0.macros
  ports : s.ports = 3 + off s0 L s0.ports
  m0 : s.m0 = 3 + off s0 L s0.m0
  stack : ∀ j, s0.sp ≤ j → j < s0.stackSize → s.stack j = 3 + off s0 L (s0.stack j)
  above : ∀ j, ¬ (s0.sp ≤ j ∧ j < s0.stackSize) → s.stack j = s0.stack j
  regs : RegsG s0 s

theorem reach_mem {base : Int} {L : List Int} {s : St} (hs : Sound s0)
    (hI : Inv s0 base L (base + total s0 L) (fun _ => False) s)
    (hroot : ∀ a, Root s0 a → a ∈ L) {a : Int} (h : Reach s0 a) : a ∈ L := by
  induction h with
  | root h => exact hroot _ h
  | @car a h ht ih =>
    have hk : Slot s0 a 0 := ⟨size_pos s0 a, fun _ => rfl⟩
    have := off_le (s0 := s0) ih
    have := size_pos s0 a
    have := (hI.closed a ih 0 hk (by omega) id).1
    simp only [src, if_true] at this
    exact this ht
  | @cdr a h ht ih =>
    have hk : Slot s0 a 0 := ⟨size_pos s0 a, fun _ => rfl⟩
    have := off_le (s0 := s0) ih
    have := size_pos s0 a
    have := (hI.closed a ih 0 hk (by omega) id).2
    have hb : isBlock (s0.cell a).tag = false := by revert ht; cases (s0.cell a).tag <;> simp [refCdr, isBlock]
    simp only [src, if_true, hb, Bool.false_eq_true, if_false] at this
    exact this ht
  | @element a i h ht hi he ih =>
    have hsz : size s0 a = 1 + (s0.cell a).car.toNat := by rw [size, if_pos ht]
    have hk : Slot s0 a (i + 1) := ⟨by omega, fun h => by rw [h] at ht; cases ht⟩
    have := off_le (s0 := s0) ih
    have := (hI.closed a ih (i + 1) hk (by omega) id).1
    simp only [src, Nat.add_one_ne_zero, if_false, Nat.add_sub_cancel] at this
    exact this (by rw [he]; rfl)

theorem gc__ok (hs : Sound s0) (hspace : s0.free + 2 + liveSize s0 ≤ s0.limit)
    (hregs : ∀ a, a = s0.r0 ∨ a = s0.r1 ∨ a = s0.r2 ∨ a = s0.r3 → ∃ i, s0.sp ≤ i ∧ i < s0.stackSize ∧ a = s0.stack i)
    {fuel : Nat} (hf : liveSize s0 + 2 < fuel) :
    ∃ L s', gc_ s0 fuel = ok s' ∧ Collected s0 L s' := by
  have hx : Ctx s0 (s0.free + 2) := ⟨hs, by omega, hspace⟩
  obtain ⟨t0, a1, L1, t1, a2, a3⟩ := gcRoots_ok hs hspace
  obtain ⟨L, t2, b1, ⟨M, b2⟩, b3, b4⟩ := gcLoop_ok hx fuel t1 (s0.free + 2) L1 a3.inv
    (by
      obtain ⟨M, hM⟩ := a3.fixed
      refine .inr ⟨c_nil, by rw [hM]; exact List.mem_append_left _ (mem_fixedList.2 (by decide)), 0, ⟨size_pos _ _, fun _ => rfl⟩, ?_⟩
      have := off_fixed hs 113 M (Nat.le_refl _) 0 (by omega)
      simp only [Int.natCast_zero, Int.add_zero] at this
      rw [hM, this]; simp) (by omega) (by omega)
  have hI := b3
  have hfr := b3.free
  rw [hfr] at b3
  have hroots : ∀ a, Root s0 a → a ∈ L := by
    intro a h
    have hL : ∀ a ∈ L1, a ∈ L := fun a h => by rw [b2]; exact List.mem_append_left _ h
    cases h with
    | fixed h h' =>
      obtain ⟨M, hM⟩ := a3.fixed
      refine hL _ ?_
      rw [hM]
      exact List.mem_append_left _ (mem_fixedList.2 ⟨h, by simp only [c_symbol_max, c_nil] at *; omega⟩)
    | symbols => exact hL _ a3.symbols.1
    | macros => exact hL _ a3.macros.1
    | ports => exact hL _ a3.ports.1
    | m0 => exact hL _ a3.m0.1
    | r0 => obtain ⟨i, h1, h2, h3⟩ := hregs _ (.inl rfl); rw [h3]; exact hL _ (a3.stack i h1 h2).1
    | r1 => obtain ⟨i, h1, h2, h3⟩ := hregs _ (.inr (.inl rfl)); rw [h3]; exact hL _ (a3.stack i h1 h2).1
    | r2 => obtain ⟨i, h1, h2, h3⟩ := hregs _ (.inr (.inr (.inl rfl))); rw [h3]; exact hL _ (a3.stack i h1 h2).1
    | r3 => obtain ⟨i, h1, h2, h3⟩ := hregs _ (.inr (.inr (.inr rfl))); rw [h3]; exact hL _ (a3.stack i h1 h2).1
    | stack h h' => exact hL _ (a3.stack _ h h').1
  have hreach : ∀ a, a ∈ L ↔ Reach s0 a := fun a => ⟨hI.reach a, reach_mem hs b3 hroots⟩
  have htot : total s0 L ≤ liveSize s0 := by
    rw [total_live]
    exact total_le hI.nodup (fun x hx' => (mem_live hs).2 (hI.reach x hx'))
  have hlim : t2.limit = s0.limit := hI.limit
  have hb := hs.base
  simp only [c_symbol_max] at hb
  -- moving back
  obtain ⟨fuel', rfl⟩ : ∃ f, fuel = f + 1 := ⟨fuel - 1, by omega⟩
  have hz := hI.zero
  rw [show s0.free + 2 - 1 = s0.free + 1 by omega] at hz
  obtain ⟨j, hj⟩ : ∃ j, (if t2.free - (s0.free + 1) > t2.jam then
      { t2 with jam := (t2.free - (s0.free + 1)) + (t2.free - (s0.free + 1)) / 2 } else t2) = { t2 with jam := j } := by
    split
    · exact ⟨_, rfl⟩
    · exact ⟨t2.jam, rfl⟩
  obtain ⟨t3, c1, c2, c3, c4, c5⟩ := gcCellcpy_ok hx hI fuel' 0
    (({ t2 with jam := j } : St).upd 2 (gcShift (s0.free + 1 - 2) (t2.cell (s0.free + 1))))
    (by
      refine .inr ⟨c_nil, by rw [hreach]; exact .root (.fixed (by decide) (by decide)), 0, ⟨size_pos _ _, fun _ => rfl⟩, ?_⟩
      obtain ⟨M', hM'⟩ := a3.fixed
      have := off_fixed hs 113 (M' ++ M) (Nat.le_refl _) 0 (by omega)
      simp only [Int.natCast_zero, Int.add_zero] at this
      rw [b2, hM', List.append_assoc, this]; simp)
    hlim (fun x hx' => by rw [upd_cell, if_neg (by simp at hx'; omega)]) (by omega)
  simp only [Int.natCast_zero, Int.add_zero, Int.sub_zero, Nat.zero_le, forall_const] at c1 c4 c5
  have r3 : Regs { t2 with jam := j } t3 := (Regs.upd _ _ _).trans c3
  have hcp : gcCellcpy (fuel' + 1) { t2 with jam := j } g_cells (s0.free + 1) (t2.free - (s0.free + 1)) = ok t3 := by
    simp only [g_cells]
    rw [gcCellcpy, if_neg (by omega), rdRaw_ok (by omega) (by show _ < t2.limit; omega)]
    simp only [ok_bind]
    rw [if_neg (by rw [hz]; simp), if_neg (by rw [hz]; simp), putRaw_ok (by omega) (by show _ < t2.limit; omega)]
    simp only [ok_bind]
    rw [← c1, hfr]
    congr 1 <;> omega
  have hfree3 : t3.free = t2.free := c2
  refine ⟨L, { t3 with
    free := t3.free - (s0.free + 1 - g_cells)
    symbols := t3.symbols - (s0.free + 1 - g_cells)
    macros := t3.macros - (s0.free + 1 - g_cells)
    ports := t3.ports - (s0.free + 1 - g_cells)
    m0 := t3.m0 - (s0.free + 1 - g_cells)
    stack := fun i => if t3.sp ≤ i ∧ i < t3.stackSize then t3.stack i - (s0.free + 1 - g_cells) else t3.stack i }, ?_, ?_⟩
  · rw [gc_, a1]
    refine (a2 _).trans ?_
    rw [show s0.free + 1 + 1 = s0.free + 2 by omega]
    simp only [b1, ok_bind, gcFlip, hj, hcp]
  · obtain ⟨Mf, hMf⟩ := a3.fixed
    have up : ∀ {a x : Int}, (a ∈ L1 ∧ x = s0.free + 2 + off s0 L1 a) → x - (s0.free + 1 - g_cells) = 3 + off s0 L a := by
      intro a x h
      rw [h.2, b2, off_append h.1]
      simp only [g_cells]
      omega
    have hst3 : t3.stack = t1.stack := by rw [r3.stack]; exact b4.stack
    have hsp3 : t3.sp = s0.sp := by
      rw [r3.sp]; show t2.sp = _
      rw [b4.sp, ← a3.regs]
    have hss3 : t3.stackSize = s0.stackSize := by
      rw [r3.stackSize]; show t2.stackSize = _
      rw [b4.stackSize, ← a3.regs]
    have rr : RegsG t1 t3 := by
      refine b4.toS.toG.trans (RegsG.trans ?_ r3.toS.toG)
      rfl
    refine ⟨hI.nodup, hreach, ⟨Mf ++ M, by rw [b2, hMf, List.append_assoc]⟩, ?_, ?_, fun a ha k hk => ?_, ?_, ?_, ?_, ?_,
      fun j h1 h2 => ?_, fun j hj => ?_, a3.regs.trans (rr.trans rfl)⟩
    · show t3.free - (s0.free + 1 - g_cells) = _
      rw [hfree3, hfr]
      simp only [g_cells]
      omega
    · show (t3.cell 2).tag = _
      rw [c4 2 (by omega), upd_cell, if_pos rfl]
      exact hz
    · show t3.cell _ = _
      rw [c5 a ha k hk, hI.new a ha k hk id, if_pos (by have := off_le (s0 := s0) ha; have := hk.1; omega)]
      congr 1
      omega
    · show t3.symbols - _ = _
      rw [r3.symbols]
      exact up ⟨a3.symbols.1, by rw [← a3.symbols.2, ← b4.symbols]⟩
    · show t3.macros - _ = _
      rw [r3.macros]
      exact up ⟨a3.macros.1, by rw [← a3.macros.2, ← b4.macros]⟩
    · show t3.ports - _ = _
      rw [r3.ports]
      exact up ⟨a3.ports.1, by rw [← a3.ports.2, ← b4.ports]⟩
    · show t3.m0 - _ = _
      rw [r3.m0]
      exact up ⟨a3.m0.1, by rw [← a3.m0.2, ← b4.m0]⟩
    · show (if t3.sp ≤ j ∧ j < t3.stackSize then t3.stack j - _ else t3.stack j) = _
      rw [if_pos (by omega), hst3]
      exact up (a3.stack j h1 h2)
    · show (if t3.sp ≤ j ∧ j < t3.stackSize then t3.stack j - _ else t3.stack j) = _
      rw [if_neg (by omega), hst3]
      exact a3.above j hj

/-! ### With the registers -/

theorem Reach.mono {s s' : St} (hc : s'.cell = s.cell) (hr : ∀ a, Root s' a → Reach s a) {a : Int} (h : Reach s' a) :
    Reach s a := by
  induction h with
  | root h => exact hr _ h
  | car h ht ih => rw [hc] at ht ⊢; exact .car ih ht
  | cdr h ht ih => rw [hc] at ht ⊢; exact .cdr ih ht
  | element h ht hi he ih => rw [hc] at ht hi he ⊢; exact .element ih ht hi he

theorem Sound.regs {s s' : St} (hs : Sound s) (hc : s'.cell = s.cell) (hf : s'.free = s.free)
    (hr : ∀ a, Root s' a → Reach s a) (hsp : 0 ≤ s'.sp ∧ s'.sp ≤ s'.stackSize) : Sound s' := by
  have hm : ∀ {a}, Reach s' a → Reach s a := fun h => Reach.mono hc hr h
  have ho : ∀ a x, Owns s' a x → Owns s a x := fun a x h => by unfold Owns at *; rw [hc] at h; exact h
  refine ⟨by rw [hf]; exact hs.base, ?_, fun a h x hx => ?_, fun a b x h1 h2 h3 h4 => ?_, ?_, ?_, ?_, ?_, ?_, ?_, hsp⟩
  · have := hs.fixed
    unfold Fixed at *
    rw [hc]; exact this
  · rw [hf]; exact hs.inside a (hm h) x (ho a x hx)
  · exact hs.disjoint a b x (hm h1) (hm h2) (ho _ _ h3) (ho _ _ h4)
  · rw [hc]; exact fun a h => hs.head a (hm h)
  · rw [hc]; exact fun a h => hs.length a (hm h)
  · rw [hc]; exact fun a h => hs.plain a (hm h)
  · rw [hc]; exact fun a h => hs.bytes a (hm h)
  · rw [hc]; exact fun a h => hs.blank a (hm h)
  · rw [hc]; exact fun a h => hs.whole a (hm h)

/-- The state after `gc_push_frame`. -/
def pushed (s : St) : St :=
  { s with
    stack := fun j => if j = s.sp - 5 then s.r3 else if j = s.sp - 4 then s.r2 else if j = s.sp - 3 then s.r1
      else if j = s.sp - 2 then s.r0 else if j = s.sp - 1 then c_f else s.stack j
    sp := s.sp - 5 }

theorem gcPushFrame_ok {s : St} (h : 5 ≤ s.sp) (h' : s.sp ≤ s.stackSize) : gcPushFrame s = ok (pushed s) := by
  have e : ∀ (t : St) (i v : Int), 0 ≤ i → i < t.stackSize →
      t.setStack i v = ok { t with stack := fun j => if j = i then v else t.stack j } := by
    intro t i v h1 h2
    rw [St.setStack, if_pos ⟨h1, h2⟩]
  rw [gcPushFrame, show assert (gcFrameSize ≤ s.sp) = ok () from if_pos h, ok_bind]
  rw [e s _ _ (by omega) (by omega), ok_bind]
  rw [e _ _ _ (by show 0 ≤ s.sp - 2; omega) (by show s.sp - 2 < s.stackSize; omega), ok_bind]
  rw [e _ _ _ (by show 0 ≤ s.sp - 3; omega) (by show s.sp - 3 < s.stackSize; omega), ok_bind]
  rw [e _ _ _ (by show 0 ≤ s.sp - 4; omega) (by show s.sp - 4 < s.stackSize; omega), ok_bind]
  rw [e _ _ _ (by show 0 ≤ s.sp - 5; omega) (by show s.sp - 5 < s.stackSize; omega), ok_bind]
  rfl

theorem pushed_root {s : St} {a : Int} (h : Root (pushed s) a) : Reach s a := by
  cases h with
  | fixed h h' => exact .root (.fixed h h')
  | symbols => exact .root .symbols
  | macros => exact .root .macros
  | ports => exact .root .ports
  | m0 => exact .root .m0
  | r0 => exact .root .r0
  | r1 => exact .root .r1
  | r2 => exact .root .r2
  | r3 => exact .root .r3
  | @stack i h h' =>
    simp only [pushed] at h h' ⊢
    split
    · exact .root .r3
    split
    · exact .root .r2
    split
    · exact .root .r1
    split
    · exact .root .r0
    split
    · exact .root (.fixed (by decide) (by decide))
    · exact .root (.stack (by omega) h')

theorem root_pushed {s : St} {a : Int} (h : Root s a) : Reach (pushed s) a := by
  cases h with
  | fixed h h' => exact .root (.fixed h h')
  | symbols => exact .root (.symbols (s := pushed s))
  | macros => exact .root (.macros (s := pushed s))
  | ports => exact .root (.ports (s := pushed s))
  | m0 => exact .root (.m0 (s := pushed s))
  | r0 => exact .root (.r0 (s := pushed s))
  | r1 => exact .root (.r1 (s := pushed s))
  | r2 => exact .root (.r2 (s := pushed s))
  | r3 => exact .root (.r3 (s := pushed s))
  | @stack i h h' =>
    have : s.stack i = (pushed s).stack i := by
      simp only [pushed]
      rw [if_neg (by omega), if_neg (by omega), if_neg (by omega), if_neg (by omega), if_neg (by omega)]
    rw [this]
    exact .root (.stack (by simp only [pushed]; omega) h')

theorem reach_pushed {s : St} {a : Int} : Reach (pushed s) a ↔ Reach s a :=
  ⟨Reach.mono (s := s) (s' := pushed s) rfl (fun _ => pushed_root), Reach.mono (s := pushed s) (s' := s) rfl (fun _ => root_pushed)⟩

theorem liveSize_pushed (s : St) : liveSize (pushed s) = liveSize s := by
  have : live (pushed s) = live s := by
    have h : Reach (pushed s) = Reach s := funext fun a => propext reach_pushed
    unfold live
    rw [h]
    rfl
  rw [liveSize, this]
  rfl

/-- What the whole collection leaves. -/
structure Done (s0 : St) (L : List Int) (s : St) : Prop where
  nodup : L.Nodup
  reach : ∀ a, a ∈ L ↔ Reach s0 a
  fixed : ∃ M, L = fixedList 113 ++ M
  free : s.free = 3 + total s0 L
  zero : (s.cell 2).tag = .char
  cell : ∀ a ∈ L, ∀ k, Slot s0 a k → s.cell (3 + off s0 L a + k) =
    gcShift (s0.free - 1) (reloc s0 (s0.free + 2) L (src s0 (s0.free + 2) L a k))
  iso : Iso (fun a => 3 + off s0 L a) s0 s

theorem off_pushed (s : St) (L : List Int) (a : Int) : off (pushed s) L a = off s L a := by
  induction L with
  | nil => rfl
  | cons b L ih => simp only [off, ih]; rfl
theorem total_pushed (s : St) (L : List Int) : total (pushed s) L = total s L := by
  induction L with
  | nil => rfl
  | cons b L ih => simp only [total, ih]; rfl

theorem gc_ok {s : St} (hs : Sound s) (hspace : s.free + 2 + liveSize s ≤ s.limit) (hsp : 5 ≤ s.sp)
    {fuel : Nat} (hf : liveSize s + 2 < fuel) : ∃ L s', gc s fuel = ok s' ∧ Done s L s' := by
  have hs1 : Sound (pushed s) := Sound.regs hs rfl rfl (fun _ => pushed_root)
    ⟨by simp only [pushed]; omega, by have := hs.sp; simp only [pushed]; omega⟩
  have hst := hs.sp
  have hp : ∀ i, i < 5 → s.sp - 5 + i < (pushed s).stackSize := fun i h => by simp only [pushed]; omega
  have e3 : (pushed s).stack (s.sp - 5) = s.r3 := by simp [pushed]
  have e2 : (pushed s).stack (s.sp - 5 + 1) = s.r2 := by
    simp only [pushed]; rw [if_neg (by omega), if_pos (by omega)]
  have e1 : (pushed s).stack (s.sp - 5 + 2) = s.r1 := by
    simp only [pushed]; rw [if_neg (by omega), if_neg (by omega), if_pos (by omega)]
  have e0 : (pushed s).stack (s.sp - 5 + 3) = s.r0 := by
    simp only [pushed]; rw [if_neg (by omega), if_neg (by omega), if_neg (by omega), if_pos (by omega)]
  have hpsp : (pushed s).sp = s.sp - 5 := rfl
  obtain ⟨L, t, h1, h2⟩ := gc__ok (s0 := pushed s) hs1 (by rw [liveSize_pushed]; exact hspace) (by
    rintro a (rfl | rfl | rfl | rfl)
    · exact ⟨s.sp - 5 + 3, by omega, hp 3 (by omega), e0.symm⟩
    · exact ⟨s.sp - 5 + 2, by omega, hp 2 (by omega), e1.symm⟩
    · exact ⟨s.sp - 5 + 1, by omega, hp 1 (by omega), e2.symm⟩
    · exact ⟨s.sp - 5, by omega, by have := hp 0 (by omega); omega, e3.symm⟩) (by rw [liveSize_pushed]; exact hf)
  have tsp : t.sp = s.sp - 5 := by rw [← hpsp, ← h2.regs]
  have tss : t.stackSize = s.stackSize := by
    have : t.stackSize = (pushed s).stackSize := by rw [← h2.regs]
    rw [this]; rfl
  have eg : ∀ i, 0 ≤ i → i < s.stackSize → t.getStack i = ok (t.stack i) := fun i h h' => by
    rw [St.getStack, if_pos ⟨h, by omega⟩]
  have st : ∀ i, s.sp - 5 ≤ i → i < s.stackSize → t.stack i = 3 + off s L ((pushed s).stack i) := fun i h h' => by
    rw [← off_pushed]; exact h2.stack i h h'
  refine ⟨L, { t with
    r0 := t.stack (s.sp - 5 + 3)
    r1 := t.stack (s.sp - 5 + 2)
    r2 := t.stack (s.sp - 5 + 1)
    r3 := t.stack (s.sp - 5)
    sp := s.sp - 5 + 5 }, ?_, ?_⟩
  · rw [gc, gcPushFrame_ok hsp hst.2, ok_bind, h1, ok_bind, gcPopFrame, gcPeekFrame, tsp]
    rw [eg _ (by omega) (by omega), ok_bind, eg _ (by omega) (by omega), ok_bind, eg _ (by omega) (by omega), ok_bind,
      eg _ (by omega) (by omega), ok_bind, eg _ (by omega) (by omega), ok_bind]
    simp only [ok_bind, tsp, gcFrameSize]
  · have hcell : ∀ a ∈ L, ∀ k, Slot s a k → t.cell (3 + off s L a + k) =
        gcShift (s.free - 1) (reloc s (s.free + 2) L (src s (s.free + 2) L a k)) := by
      intro a ha k hk
      have := h2.cell a ha k hk
      unfold src reloc at this
      simp only [off_pushed] at this
      exact this
    have hmem : ∀ a, a ∈ L ↔ Reach s a := fun a => by rw [h2.reach, reach_pushed]
    refine ⟨h2.nodup, hmem, h2.fixed, by rw [← total_pushed]; exact h2.free, h2.zero, hcell, ?_⟩
    have h0 : ∀ a ∈ L, t.cell (3 + off s L a) =
        gcShift (s.free - 1) (reloc s (s.free + 2) L (src s (s.free + 2) L a 0)) := fun a ha => by
      simpa using hcell a ha 0 ⟨size_pos s a, fun _ => rfl⟩
    have hcdr : ∀ a ∈ L, isBlock (s.cell a).tag → (t.cell (3 + off s L a)).cdr = 3 + off s L a + 1 := fun a ha hb => by
      rw [h0 a ha]
      simp only [gcShift, reloc, src, if_true]
      rcases isBlock_iff.1 hb with h | h <;> rw [h] <;> simp [refCdr, isBlock] <;> omega
    refine ⟨fun a ha => ?_, fun a ha hb i hi => ?_, fun a b ha hb h => ?_, fun a h h' => ?_, ?_, ?_, ?_, ?_, ?_, ?_, ?_, ?_,
      ?_, tss, fun i h h' => ?_, ?_, ?_, ?_, ?_, ?_⟩
    · have ha' := (hmem a).2 ha
      simp only
      rw [h0 a ha']
      simp only [gcShift, reloc, src, if_true]
      refine ⟨rfl, ?_, fun hb hby => ?_, fun hby => ?_⟩
      · simp only
        simp only [← refCar_iff]
        split
        · omega
        · rfl
      · simp only
        rw [hb]
        simp only [Bool.false_eq_true, if_false]
        have : ((s.cell a).tag = .bytes ∨ (s.cell a).tag = .closure ∨ (s.cell a).tag = .continuation ∨
          (s.cell a).tag = .keyword ∨ (s.cell a).tag = .macro ∨ (s.cell a).tag = .pair ∨ (s.cell a).tag = .port ∨
          (s.cell a).tag = .special ∨ (s.cell a).tag = .string ∨ (s.cell a).tag = .struct ∨ (s.cell a).tag = .symbol ∨
          (s.cell a).tag = .values ∨ (s.cell a).tag = .vector) ↔ refCdr (s.cell a).tag = true := by
          revert hb hby; cases (s.cell a).tag <;> simp [isBlock, refCdr]
        simp only [this]
        split
        · omega
        · rfl
      · simp only
        rw [if_pos hby, if_pos hby, hby]
        simp only [refCar, Bool.false_eq_true, if_false]
        rw [hs.bytes a ha hby]; simp
    · have ha' := (hmem a).2 ha
      have hsz : size s a = 1 + (s.cell a).car.toNat := by rw [size, if_pos hb]
      have hk : Slot s a (i + 1) := ⟨by omega, fun h => by rw [h] at hb; cases hb⟩
      have hc := hcell a ha' (i + 1) hk
      simp only
      rw [hcdr a ha' hb, show (3 : Int) + off s L a + 1 + i = 3 + off s L a + (i + 1 : Nat) by omega, hc]
      simp only [gcShift, reloc, src, Nat.add_one_ne_zero, if_false, Nat.add_sub_cancel]
      rcases hs.plain a ha hb i hi with h | h | h
      · refine ⟨rfl, ?_, fun _ _ => ?_, fun h' => ?_⟩
        · simp only [h, refCar]; simp; omega
        · simp [h, refCdr]
        · rw [h] at h'; cases h'
      · refine ⟨rfl, ?_, fun _ _ => ?_, fun h' => ?_⟩
        · simp [h, refCar]
        · simp [h, refCdr]
        · rw [h] at h'; cases h'
      · refine ⟨rfl, ?_, fun _ _ => ?_, fun h' => ?_⟩
        · simp [h, refCar]
        · simp [h, refCdr]
        · rw [h] at h'; cases h'
    · exact off_inj (s0 := s) ((hmem a).2 ha) ((hmem b).2 hb) (by omega)
    · obtain ⟨M, hM⟩ := h2.fixed
      have := off_fixed hs 113 M (Nat.le_refl _) (a - 3).toNat (by simp only [c_nil, c_symbol_max] at *; omega)
      rw [← hM, show c_nil + ((a - 3).toNat : Int) = a by simp only [c_nil] at *; omega] at this
      simp only [c_nil] at h
      omega
    · rw [← off_pushed]; exact h2.symbols
    · rw [← off_pushed]; exact h2.macros
    · rw [← off_pushed]; exact h2.ports
    · rw [← off_pushed]; exact h2.m0
    · show t.stack _ = _
      rw [st _ (by omega) (by omega), e0]
    · show t.stack _ = _
      rw [st _ (by omega) (by omega), e1]
    · show t.stack _ = _
      rw [st _ (by omega) (by omega), e2]
    · show t.stack _ = _
      rw [st _ (by omega) (by omega), e3]
    · show s.sp - 5 + 5 = s.sp
      omega
    · show t.stack i = _
      rw [st i (by omega) h']
      simp only [pushed]
      rw [if_neg (by omega), if_neg (by omega), if_neg (by omega), if_neg (by omega), if_neg (by omega)]
    · show t.arena = _
      have : t.arena = (pushed s).arena := by rw [← h2.regs]
      exact this
    · show t.safety = _
      have : t.safety = (pushed s).safety := by rw [← h2.regs]
      exact this
    · show t.limit = _
      have : t.limit = (pushed s).limit := by rw [← h2.regs]
      exact this
    · show t.maxString = _
      have : t.maxString = (pushed s).maxString := by rw [← h2.regs]
      exact this
    · show t.continuations = _
      have : t.continuations = (pushed s).continuations := by rw [← h2.regs]
      exact this

/-! ### Consequences -/

end Gc
open Res Spec

theorem Spec.SameCell.refCar {f : Int → Int} {c c' : Cell} (h : SameCell f c c') : refCar c'.tag = refCar c.tag := by
  rw [h.tag]

/-- Reachable objects have reachable counterparts, -/
theorem Spec.Iso.reach {f : Int → Int} {s s' : St} (h : Iso f s s') {a : Int} (ha : Reach s a) : Reach s' (f a) := by
  induction ha with
  | root hr =>
    cases hr with
    | fixed h1 h2 => rw [h.fixed _ h1 h2]; exact .root (.fixed h1 h2)
    | symbols => rw [← h.symbols]; exact .root .symbols
    | macros => rw [← h.macros]; exact .root .macros
    | ports => rw [← h.ports]; exact .root .ports
    | m0 => rw [← h.m0]; exact .root .m0
    | r0 => rw [← h.r0]; exact .root .r0
    | r1 => rw [← h.r1]; exact .root .r1
    | r2 => rw [← h.r2]; exact .root .r2
    | r3 => rw [← h.r3]; exact .root .r3
    | stack h1 h2 => rw [← h.stack _ h1 h2]; exact .root (.stack (by rw [h.sp]; exact h1) (by rw [h.stackSize]; exact h2))
  | @car a ha ht ih =>
    have hc := h.cell a ha
    have := Reach.car ih (by rw [hc.tag]; exact ht)
    rw [hc.car, if_pos ht] at this
    exact this
  | @cdr a ha ht ih =>
    have hc := h.cell a ha
    have := Reach.cdr ih (by rw [hc.tag]; exact ht)
    rw [hc.cdr (by revert ht; cases (s.cell a).tag <;> simp [refCdr, isBlock])
      (by revert ht; cases (s.cell a).tag <;> simp [refCdr]), if_pos ht] at this
    exact this
  | @element a i ha ht hi he ih =>
    have hc := h.cell a ha
    have hcar : (s'.cell (f a)).car = (s.cell a).car := by
      rw [hc.car, if_neg (by revert ht; cases (s.cell a).tag <;> simp [isBlock, refCar])]
    have hel := h.element a ha ht i hi
    have := Reach.element (i := i) ih (by rw [hc.tag]; exact ht) (by rw [hcar]; exact hi) (by rw [hel.tag]; exact he)
    rw [hel.car, if_pos (by rw [he]; rfl)] at this
    exact this

/-- and nothing else is reachable. -/
theorem Spec.Iso.reach_inv {f : Int → Int} {s s' : St} (h : Iso f s s') {y : Int} (hy : Reach s' y) :
    ∃ a, Reach s a ∧ y = f a := by
  induction hy with
  | root hr =>
    cases hr with
    | fixed h1 h2 => exact ⟨_, .root (.fixed h1 h2), (h.fixed _ h1 h2).symm⟩
    | symbols => exact ⟨_, .root .symbols, h.symbols⟩
    | macros => exact ⟨_, .root .macros, h.macros⟩
    | ports => exact ⟨_, .root .ports, h.ports⟩
    | m0 => exact ⟨_, .root .m0, h.m0⟩
    | r0 => exact ⟨_, .root .r0, h.r0⟩
    | r1 => exact ⟨_, .root .r1, h.r1⟩
    | r2 => exact ⟨_, .root .r2, h.r2⟩
    | r3 => exact ⟨_, .root .r3, h.r3⟩
    | @stack i h1 h2 =>
      rw [h.sp] at h1
      rw [h.stackSize] at h2
      exact ⟨_, .root (.stack h1 h2), h.stack i h1 h2⟩
  | car _ ht ih =>
    obtain ⟨a, ha, rfl⟩ := ih
    have hc := h.cell a ha
    rw [hc.tag] at ht
    exact ⟨_, .car ha ht, by rw [hc.car, if_pos ht]⟩
  | cdr _ ht ih =>
    obtain ⟨a, ha, rfl⟩ := ih
    have hc := h.cell a ha
    rw [hc.tag] at ht
    exact ⟨_, .cdr ha ht, by
      rw [hc.cdr (by revert ht; cases (s.cell a).tag <;> simp [refCdr, isBlock])
        (by revert ht; cases (s.cell a).tag <;> simp [refCdr]), if_pos ht]⟩
  | @element _ i _ ht hi he ih =>
    obtain ⟨a, ha, rfl⟩ := ih
    have hc := h.cell a ha
    rw [hc.tag] at ht
    have hcar : (s'.cell (f a)).car = (s.cell a).car := by
      rw [hc.car, if_neg (by revert ht; cases (s.cell a).tag <;> simp [isBlock, refCar])]
    rw [hcar] at hi
    have hel := h.element a ha ht i hi
    rw [hel.tag] at he
    exact ⟨_, .element ha ht hi he, by rw [hel.car, if_pos (by rw [he]; rfl)]⟩

namespace Gc

variable {s s' : St} {L : List Int}

theorem Done.cdr (h : Done s L s') {a : Int} (ha : Reach s a) (hb : isBlock (s.cell a).tag) :
    (s'.cell (3 + off s L a)).cdr = 3 + off s L a + 1 := by
  have := h.cell a ((h.reach a).2 ha) 0 ⟨size_pos s a, fun _ => rfl⟩
  simp only [Int.natCast_zero, Int.add_zero] at this
  rw [this]
  simp only [gcShift, reloc, src, if_true]
  rcases isBlock_iff.1 hb with h | h <;> rw [h] <;> simp [refCdr, isBlock] <;> omega

theorem Done.car (h : Done s L s') {a : Int} (ha : Reach s a) (hb : isBlock (s.cell a).tag) :
    (s'.cell (3 + off s L a)).car = (s.cell a).car := by
  have := (h.iso.cell a ha).car
  rw [if_neg (by revert hb; cases (s.cell a).tag <;> simp [isBlock, refCar])] at this
  exact this

theorem Done.size (hs : Sound s) (h : Done s L s') {a : Int} (ha : Reach s a) : size s' (3 + off s L a) = size s a := by
  have hc := h.iso.cell a ha
  unfold Spec.size
  rw [hc.tag]
  split
  · rw [h.car ha ‹_›]
  · split
    · rw [hc.bytes ‹_›]
    · rfl

/-- The cells of an object, after the collection. -/
theorem Done.owns (hs : Sound s) (h : Done s L s') {a : Int} (ha : Reach s a) {x : Int} :
    Owns s' (3 + off s L a) x ↔ 3 + (off s L a : Int) ≤ x ∧ x < 3 + off s L a + Spec.size s a := by
  have hc := h.iso.cell a ha
  have hp := size_pos s a
  unfold Owns
  rw [hc.tag]
  by_cases hb : isBlock (s.cell a).tag
  · have hl := hs.length a ha hb
    have hsz : Spec.size s a = 1 + (s.cell a).car.toNat := by rw [Spec.size, if_pos hb]
    have hnb : (s.cell a).tag ≠ .bytes := by intro h; rw [h] at hb; cases hb
    rw [h.cdr ha hb, h.car ha hb]
    simp only [hb, hnb, true_and, false_and, or_false]
    omega
  · by_cases hby : (s.cell a).tag = .bytes
    · have hsz : Spec.size s a = (bytesCells (s.cell a).bytes.length).toNat := by
        rw [Spec.size, if_neg hb, if_pos hby]
      rw [hc.bytes hby]
      simp only [eq_false hb]
      simp only [hby, true_and, false_and, false_or]
      omega
    · have hsz : Spec.size s a = 1 := by rw [Spec.size, if_neg hb, if_neg hby]
      simp only [eq_false hb, hby, false_and, or_false]
      omega

theorem Done.sound (hs : Sound s) (h : Done s L s') : Sound s' := by
  have hinv : ∀ {y}, Reach s' y → ∃ a, Reach s a ∧ y = 3 + off s L a := fun hy => h.iso.reach_inv hy
  have hbase : (113 : Int) ≤ total s L := by
    obtain ⟨M, hM⟩ := h.fixed
    rw [hM, total_append, total_fixed hs 113 (Nat.le_refl _)]
    omega
  have hfree := h.free
  refine ⟨by simp only [c_symbol_max]; omega, fun a h1 h2 => ?_, fun y hy x hx => ?_, fun y z x hy hz h1 h2 => ?_,
    fun y hy hb => ?_, fun y hy hb => ?_, fun y hy hb i hi => ?_, fun y hy hb => ?_, fun y hy hb => ?_, fun y hy => ?_,
    by rw [h.iso.sp, h.iso.stackSize]; exact hs.sp⟩
  · have := (h.iso.cell a (.root (.fixed h1 h2))).tag
    rw [h.iso.fixed a h1 h2] at this
    rw [this]
    exact hs.fixed a h1 h2
  · obtain ⟨a, ha, rfl⟩ := hinv hy
    have h1 := (h.owns hs ha).1 hx
    have h2 := off_le (s0 := s) ((h.reach a).2 ha)
    simp only [c_nil]
    omega
  · obtain ⟨a, ha, rfl⟩ := hinv hy
    obtain ⟨b, hb, rfl⟩ := hinv hz
    have h1 := (h.owns hs ha).1 h1
    have h2 := (h.owns hs hb).1 h2
    rcases Decidable.em (a = b) with h3 | h3
    · rw [h3]
    · have := off_disjoint (s0 := s) ((h.reach a).2 ha) ((h.reach b).2 hb) h3
      omega
  · obtain ⟨a, ha, rfl⟩ := hinv hy
    rw [(h.iso.cell a ha).tag] at hb
    rw [h.cdr ha hb]
    omega
  · obtain ⟨a, ha, rfl⟩ := hinv hy
    rw [(h.iso.cell a ha).tag] at hb
    rw [h.car ha hb]
    exact hs.length a ha hb
  · obtain ⟨a, ha, rfl⟩ := hinv hy
    rw [(h.iso.cell a ha).tag] at hb
    rw [h.car ha hb] at hi
    have := (h.iso.element a ha hb i hi).tag
    rw [this]
    exact hs.plain a ha hb i hi
  · obtain ⟨a, ha, rfl⟩ := hinv hy
    have hc := h.iso.cell a ha
    rw [hc.tag] at hb
    rw [hc.bytes hb, hc.car, if_neg (by rw [hb]; simp [Spec.refCar])]
    exact hs.bytes a ha hb
  · obtain ⟨a, ha, rfl⟩ := hinv hy
    have hc := h.iso.cell a ha
    rw [hc.tag] at hb
    have := h.cell a ((h.reach a).2 ha) 0 ⟨size_pos s a, fun _ => rfl⟩
    simp only [Int.natCast_zero, Int.add_zero] at this
    rw [this]
    simp [gcShift, reloc, src, hb]
  · obtain ⟨a, ha, rfl⟩ := hinv hy
    rw [(h.iso.cell a ha).tag]
    exact hs.whole a ha

theorem total_map (hs : Sound s) (h : Done s L s') : ∀ M : List Int, (∀ a ∈ M, Reach s a) →
    total s' (M.map (fun a => 3 + (off s L a : Int))) = total s M
  | [], _ => rfl
  | a :: M, hM => by
    simp only [List.map_cons, total]
    rw [h.size hs (hM a (by simp)), total_map hs h M (fun a ha => hM a (by simp [ha]))]

theorem total_eq (hs : Sound s) (hn : L.Nodup) (hr : ∀ a, a ∈ L ↔ Reach s a) : total s L = liveSize s := by
  rw [total_live]
  exact Nat.le_antisymm (total_le hn (fun a ha => (mem_live hs).2 ((hr a).1 ha)))
    (total_le (live_nodup s) (fun a ha => (hr a).2 ((mem_live hs).1 ha)))

theorem Done.liveSize (hs : Sound s) (h : Done s L s') : liveSize s' = liveSize s := by
  rw [← total_eq hs h.nodup h.reach, ← total_map hs h L (fun a ha => (h.reach a).1 ha)]
  refine (total_eq (h.sound hs) ?_ (fun y => ⟨fun hy => ?_, fun hy => ?_⟩)).symm
  · refine List.Pairwise.map _ ?_ (List.Pairwise.and_mem.1 h.nodup)
    intro a b hab he
    exact hab.2.2 (off_inj (s0 := s) hab.1 hab.2.1 (by omega))
  · obtain ⟨a, ha, rfl⟩ := List.mem_map.1 hy
    exact h.iso.reach ((h.reach a).1 ha)
  · obtain ⟨a, ha, rfl⟩ := h.iso.reach_inv hy
    exact List.mem_map.2 ⟨a, (h.reach a).2 ha, rfl⟩

/-- After the collection every cell in use belongs to a reachable object. -/
theorem Done.packed (hs : Sound s) (h : Done s L s') {x : Int} (h1 : 3 ≤ x) (h2 : x < s'.free) :
    ∃ y, Reach s' y ∧ Owns s' y x := by
  have := h.free
  obtain ⟨a, ha, h3, h4⟩ := off_cover (s0 := s) h.nodup (n := (x - 3).toNat) (by omega)
  have ha' := (h.reach a).1 ha
  exact ⟨_, h.iso.reach ha', (h.owns hs ha').2 (by omega)⟩

/-! ### Live data take no more than what is allocated -/

theorem length_le_of_nodup {M N : List Int} (hn : M.Nodup) (h : ∀ a ∈ M, a ∈ N) : M.length ≤ N.length := by
  induction M generalizing N with
  | nil => simp
  | cons b M ih =>
    have hb := h b (by simp)
    have h1 := ih (N := N.erase b) (List.nodup_cons.1 hn).2 (fun a ha => by
      have hne : a ≠ b := by rintro rfl; exact (List.nodup_cons.1 hn).1 ha
      exact (List.mem_erase_of_ne hne).2 (h a (by simp [ha])))
    have h2 := List.length_erase_of_mem hb
    have := List.length_pos_of_mem hb
    simp only [List.length_cons]
    omega

/-- The cells of an object. -/
def cells (s : St) (a : Int) : List Int :=
  if isBlock (s.cell a).tag then a :: (List.range (s.cell a).car.toNat).map (fun i : Nat => (s.cell a).cdr + (i : Int))
  else (List.range (Spec.size s a)).map (fun i : Nat => a + (i : Int))

theorem cells_length (s : St) (a : Int) : (cells s a).length = Spec.size s a := by
  unfold cells Spec.size
  split
  · simp; omega
  · simp [*]

theorem cells_owns (hs : Sound s) {a x : Int} (ha : Reach s a) (h : x ∈ cells s a) : Owns s a x := by
  unfold cells at h
  split at h
  · rename_i hb
    rcases List.mem_cons.1 h with h | h
    · exact .inl h
    · obtain ⟨i, hi, rfl⟩ := List.mem_map.1 h
      rw [List.mem_range] at hi
      exact .inr (.inl ⟨hb, by omega, by omega⟩)
  · rename_i hb
    obtain ⟨i, hi, rfl⟩ := List.mem_map.1 h
    rw [List.mem_range] at hi
    unfold Spec.size at hi
    rw [if_neg hb] at hi
    split at hi
    · exact .inr (.inr ⟨‹_›, by omega, by omega⟩)
    · exact .inl (by omega)

theorem nodup_shift (n : Nat) (b : Int) : ((List.range n).map (fun i : Nat => b + (i : Int))).Nodup :=
  List.Pairwise.map _ (fun i j hij he => hij (by omega)) List.nodup_range

theorem cells_nodup (hs : Sound s) {a : Int} (ha : Reach s a) : (cells s a).Nodup := by
  unfold cells
  split
  · rename_i hb
    refine List.nodup_cons.2 ⟨fun h => ?_, nodup_shift _ _⟩
    obtain ⟨i, hi, h⟩ := List.mem_map.1 h
    rw [List.mem_range] at hi
    exact hs.head a ha hb ⟨by omega, by omega⟩
  · exact nodup_shift _ _

theorem flat_ok (hs : Sound s) : ∀ M : List Int, M.Nodup → (∀ a ∈ M, Reach s a) →
    (M.flatMap (cells s)).Nodup ∧ (M.flatMap (cells s)).length = total s M
  | [], _, _ => by simp [total]
  | a :: M, hn, hr => by
    obtain ⟨h1, h2⟩ := flat_ok hs M (List.nodup_cons.1 hn).2 (fun a ha => hr a (by simp [ha]))
    rw [List.flatMap_cons]
    refine ⟨?_, by rw [List.length_append, h2, cells_length, total]⟩
    refine List.nodup_append.2 ⟨cells_nodup hs (hr a (by simp)), h1, fun x hx y hy => ?_⟩
    rintro rfl
    obtain ⟨b, hb, hby⟩ := List.mem_flatMap.1 hy
    have : a = b := hs.disjoint a b x (hr a (by simp)) (hr b (by simp [hb])) (cells_owns hs (hr a (by simp)) hx)
      (cells_owns hs (hr b (by simp [hb])) hby)
    exact (List.nodup_cons.1 hn).1 (this ▸ hb)

theorem liveSize_le (hs : Sound s) : (3 : Int) + Spec.liveSize s ≤ s.free := by
  have hr : ∀ a ∈ live s, Reach s a := fun a ha => (mem_live hs).1 ha
  obtain ⟨h1, h2⟩ := flat_ok hs (live s) (live_nodup s) hr
  rw [total_live, ← h2]
  have hb := hs.base
  simp only [c_symbol_max] at hb
  have := length_le_of_nodup (N := (List.range (s.free - 3).toNat).map (fun i : Nat => 3 + (i : Int))) h1 (fun x hx => by
    obtain ⟨a, ha, hax⟩ := List.mem_flatMap.1 hx
    have := hs.inside a (hr a ha) x (cells_owns hs (hr a ha) hax)
    simp only [c_nil] at this
    exact List.mem_map.2 ⟨(x - 3).toNat, by rw [List.mem_range]; omega, by omega⟩)
  rw [List.length_map, List.length_range] at this
  omega

end Mes.Gc
