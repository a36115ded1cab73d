import Verif.Proof.GcSim
/-
Isomorphic memories have the same access paths; and a check that a concrete memory is sound.
-/
namespace Mes.Gc
open Res Spec
variable {f : Int → Int} {s s' : St}

theorem rootAt_reach {r : RootName} {a : Int} (h : rootAt s r = some a) : Reach s a := by
  cases r with
  | fixed b =>
    simp only [rootAt] at h
    split at h
    · cases h; exact .root (.fixed (by omega) (by omega))
    · cases h
  | stack i =>
    simp only [rootAt] at h
    split at h
    · cases h; exact .root (.stack (by omega) (by omega))
    · cases h
  | symbols => cases h; exact .root .symbols
  | macros => cases h; exact .root .macros
  | ports => cases h; exact .root .ports
  | m0 => cases h; exact .root .m0
  | r0 => cases h; exact .root .r0
  | r1 => cases h; exact .root .r1
  | r2 => cases h; exact .root .r2
  | r3 => cases h; exact .root .r3

theorem rootAt_iso (h : Iso f s s') (r : RootName) : rootAt s' r = (rootAt s r).map f := by
  cases r with
  | fixed b =>
    simp only [rootAt]
    split
    · rw [Option.map_some, h.fixed b (by omega) (by omega)]
    · rfl
  | stack i =>
    simp only [rootAt]
    rw [h.sp, h.stackSize]
    split
    · rw [Option.map_some, h.stack i (by omega) (by omega)]
    · rfl
  | symbols => simp [rootAt, h.symbols]
  | macros => simp [rootAt, h.macros]
  | ports => simp [rootAt, h.ports]
  | m0 => simp [rootAt, h.m0]
  | r0 => simp [rootAt, h.r0]
  | r1 => simp [rootAt, h.r1]
  | r2 => simp [rootAt, h.r2]
  | r3 => simp [rootAt, h.r3]

theorem move_reach {a b : Int} {m : Move} (ha : Reach s a) (h : move s a m = some b) : Reach s b := by
  cases m <;> simp only [move] at h <;> split at h
  · cases h; exact .car ha ‹_›
  · cases h
  · cases h; exact .cdr ha ‹_›
  · cases h
  · rename_i i h'; cases h; exact .element ha h'.1 h'.2.1 h'.2.2
  · cases h

theorem block_car {t : Tag} (h : isBlock t) : refCar t = false := by cases t <;> first | rfl | cases h
theorem block_cdr {t : Tag} (h : isBlock t) : refCdr t = false := by cases t <;> first | rfl | cases h
theorem block_bytes {t : Tag} (h : isBlock t) : t ≠ .bytes := by rintro rfl; cases h
theorem cdr_plain {t : Tag} (h : refCdr t) : isBlock t = false ∧ t ≠ .bytes := by
  cases t <;> first | (cases h; done) | exact ⟨rfl, by simp⟩

theorem move_iso (h : Iso f s s') {a : Int} (ha : Reach s a) (m : Move) : move s' (f a) m = (move s a m).map f := by
  have hc := h.cell a ha
  cases m with
  | car =>
    simp only [move]
    rw [hc.tag]
    split
    · rw [hc.car, if_pos ‹_›]; rfl
    · rfl
  | cdr =>
    simp only [move]
    rw [hc.tag]
    split
    · rename_i ht
      obtain ⟨h1, h2⟩ := cdr_plain ht
      rw [hc.cdr h1 h2, if_pos ht]; rfl
    · rfl
  | element i =>
    simp only [move]
    by_cases hb : isBlock (s.cell a).tag = true
    · rw [hc.tag, hc.car, block_car hb]
      by_cases hi : (i : Int) < (s.cell a).car
      · have he := h.element a ha hb i hi
        rw [he.tag]
        by_cases ht : (s.cell ((s.cell a).cdr + i)).tag = .ref
        · rw [if_pos ⟨hb, by simpa using hi, ht⟩, if_pos ⟨hb, hi, ht⟩, he.car, if_pos (by rw [ht]; rfl)]; rfl
        · rw [if_neg (fun h => ht h.2.2), if_neg (fun h => ht h.2.2)]; rfl
      · rw [if_neg (fun h => hi (by simpa using h.2.1)), if_neg (fun h => hi h.2.1)]; rfl
    · rw [hc.tag, if_neg (fun h => hb h.1), if_neg (fun h => hb h.1)]; rfl

theorem follow_iso (h : Iso f s s') : ∀ (p : List Move) {a : Int}, Reach s a → follow s' (f a) p = (follow s a p).map f
  | [], _, _ => rfl
  | m :: p, a, ha => by
    rw [follow, follow, move_iso h ha]
    cases hm : move s a m with
    | none => rfl
    | some b => exact follow_iso h p (move_reach ha hm)

theorem follow_reach : ∀ (p : List Move) {a b : Int}, Reach s a → follow s a p = some b → Reach s b
  | [], _, _, ha, h => by cases h; exact ha
  | m :: p, a, b, ha, h => by
    rw [follow] at h
    cases hm : move s a m with
    | none => rw [hm] at h; cases h
    | some c => rw [hm] at h; exact follow_reach p (move_reach ha hm) h

theorem lookup_iso (h : Iso f s s') (r : RootName) (p : List Move) : lookPath s' r p = (lookPath s r p).map f := by
  rw [lookPath, lookPath, rootAt_iso h]
  cases hr : rootAt s r with
  | none => rfl
  | some a => exact follow_iso h p (rootAt_reach hr)

theorem lookup_reach {r : RootName} {p : List Move} {b : Int} (h : lookPath s r p = some b) : Reach s b := by
  rw [lookPath] at h
  cases hr : rootAt s r with
  | none => rw [hr] at h; cases h
  | some a => rw [hr] at h; exact follow_reach p (rootAt_reach hr) h

theorem words_same {a b : Int} (h : SameCell f (s.cell a) (s'.cell b)) : wordsAt s' b = wordsAt s a := by
  unfold wordsAt
  rw [h.tag, h.car]
  congr 2
  · split <;> rfl
  · by_cases hc : refCdr (s.cell a).tag ∨ isBlock (s.cell a).tag ∨ (s.cell a).tag = .bytes
    · rw [if_pos hc, if_pos hc]
    · rw [if_neg hc, if_neg hc, h.cdr (by simpa using fun e => hc (.inr (.inl e))) (fun e => hc (.inr (.inr e))),
        if_neg (fun e => hc (.inl e))]

theorem view_iso (h : Iso f s s') {a : Int} (ha : Reach s a) : view s' (f a) = view s a := by
  have hc := h.cell a ha
  unfold view
  rw [words_same hc, hc.tag]
  congr 2
  · split
    · exact hc.bytes ‹_›
    · rfl
  · split
    · rename_i hb
      rw [hc.car, block_car hb]
      refine List.map_congr_left fun i hi => ?_
      rw [List.mem_range] at hi
      exact words_same (h.element a ha hb i (by simp at hi; omega))
    · rfl

theorem sameGraph (h : Iso f s s') : SameGraph s s' := by
  refine ⟨fun r p => ?_, fun r p r' p' => ?_⟩
  · rw [lookup_iso h]
    cases hl : lookPath s r p with
    | none => rfl
    | some a => simp only [Option.map_some]; rw [view_iso h (lookup_reach hl)]
  · rw [lookup_iso h, lookup_iso h]
    cases hl : lookPath s r p with
    | none => cases lookPath s r' p' <;> simp
    | some a =>
      cases hl' : lookPath s r' p' with
      | none => simp
      | some b =>
        simp only [Option.map_some, Option.some.injEq]
        exact ⟨h.inj a b (lookup_reach hl) (lookup_reach hl'), fun e => by rw [e]⟩

/-! ### Checking that a concrete memory is sound -/

/-- The roots, as a list. -/
def rootList (s : St) : List Int :=
  (List.range 113).map (fun i : Nat => 3 + (i : Int)) ++ [s.symbols, s.macros, s.ports, s.m0, s.r0, s.r1, s.r2, s.r3] ++
    (List.range (s.stackSize - s.sp).toNat).map (fun i : Nat => s.stack (s.sp + (i : Int)))

/-- What the object at `a` refers to. -/
def refs (s : St) (a : Int) : List Int :=
  (if refCar (s.cell a).tag then [(s.cell a).car] else []) ++ (if refCdr (s.cell a).tag then [(s.cell a).cdr] else []) ++
    (if isBlock (s.cell a).tag then (List.range (s.cell a).car.toNat).flatMap (fun i : Nat =>
      if (s.cell ((s.cell a).cdr + (i : Int))).tag = .ref then [(s.cell ((s.cell a).cdr + (i : Int))).car] else []) else [])

/-- One object by itself is all right. -/
def fine (s : St) (a : Int) : Bool :=
  (cells s a).all (fun x => decide (3 ≤ x ∧ x < s.free)) && decide ((s.cell a).tag ≠ .brokenHeart) &&
  (if isBlock (s.cell a).tag then decide (0 ≤ (s.cell a).car) && (List.range (s.cell a).car.toNat).all (fun i : Nat =>
      decide ((s.cell ((s.cell a).cdr + (i : Int))).tag = .ref ∨ (s.cell ((s.cell a).cdr + (i : Int))).tag = .number ∨
        (s.cell ((s.cell a).cdr + (i : Int))).tag = .char)) else true) &&
  (if (s.cell a).tag = .bytes then decide ((s.cell a).car = (s.cell a).bytes.length ∧ 0 < (s.cell a).bytes.length)
    else decide ((s.cell a).bytes = []))

/-- `l` are all the objects, and they are all right. -/
def check (s : St) (l : List Int) : Bool :=
  (rootList s).all (l.contains ·) && l.all (fun a => (refs s a).all (l.contains ·)) && l.all (fine s) &&
  decide ((l.flatMap (cells s)).Nodup) && decide (116 ≤ s.free ∧ 0 ≤ s.sp ∧ s.sp ≤ s.stackSize) &&
  (List.range 113).all (fun i : Nat => decide ((s.cell (3 + (i : Int))).tag = if (3 + (i : Int)) < 46 then .special else .symbol))

theorem mem_rootList {a : Int} (h : Root s a) : a ∈ rootList s := by
  unfold rootList
  cases h with
  | fixed h1 h2 =>
    simp only [c_nil, c_symbol_max] at h1 h2
    refine List.mem_append_left _ (List.mem_append_left _ (List.mem_map.2 ⟨(a - 3).toNat, ?_, ?_⟩))
    · rw [List.mem_range]; omega
    · omega
  | @stack i h1 h2 =>
    refine List.mem_append_right _ (List.mem_map.2 ⟨(i - s.sp).toNat, ?_, ?_⟩)
    · rw [List.mem_range]; omega
    · rw [show s.sp + ((i - s.sp).toNat : Int) = i by omega]
  | _ => exact List.mem_append_left _ (List.mem_append_right _ (by simp))

theorem mem_cells {a x : Int} (hl : isBlock (s.cell a).tag → 0 ≤ (s.cell a).car)
    (hb : (s.cell a).tag = .bytes → 0 < bytesCells (s.cell a).bytes.length) (h : Owns s a x) : x ∈ cells s a := by
  unfold cells
  split
  · rename_i hbl
    rcases h with rfl | ⟨-, h1, h2⟩ | ⟨h1, -⟩
    · simp
    · refine List.mem_cons_of_mem _ (List.mem_map.2 ⟨(x - (s.cell a).cdr).toNat, ?_, ?_⟩)
      · rw [List.mem_range]; omega
      · omega
    · exact absurd h1 (block_bytes hbl)
  · rename_i hbl
    rw [Spec.size, if_neg hbl]
    refine List.mem_map.2 ⟨(x - a).toNat, ?_, ?_⟩
    · rw [List.mem_range]
      rcases h with rfl | ⟨h1, -⟩ | ⟨h1, h2, h3⟩
      · split
        · have := hb ‹_›; omega
        · omega
      · exact absurd h1 hbl
      · rw [if_pos h1]; omega
    · rcases h with rfl | ⟨h1, -⟩ | ⟨h1, h2, h3⟩
      · omega
      · exact absurd h1 hbl
      · omega

theorem flat_disjoint {l : List Int} {g : Int → List Int} (h : (l.flatMap g).Nodup) {a b x : Int} (ha : a ∈ l) (hb : b ∈ l)
    (hx : x ∈ g a) (hy : x ∈ g b) : a = b := by
  induction l with
  | nil => cases ha
  | cons c l ih =>
    rw [List.flatMap_cons, List.nodup_append] at h
    obtain ⟨-, h2, h3⟩ := h
    rcases List.mem_cons.1 ha with ha' | ha' <;> rcases List.mem_cons.1 hb with hb' | hb'
    · rw [ha', hb']
    · subst ha'; exact absurd rfl (h3 x hx x (List.mem_flatMap.2 ⟨b, hb', hy⟩))
    · subst hb'; exact absurd rfl (h3 x hy x (List.mem_flatMap.2 ⟨a, ha', hx⟩))
    · exact ih h2 ha' hb'

theorem flat_nodup {l : List Int} {g : Int → List Int} (h : (l.flatMap g).Nodup) {a : Int} (ha : a ∈ l) : (g a).Nodup := by
  induction l with
  | nil => cases ha
  | cons c l ih =>
    rw [List.flatMap_cons, List.nodup_append] at h
    rcases List.mem_cons.1 ha with rfl | ha
    · exact h.1
    · exact ih h.2.1 ha

theorem check_closed {l : List Int} (h : check s l = true) : Closed (· ∈ l) s := by
  simp only [check, Bool.and_eq_true, List.all_eq_true, List.contains_iff_mem] at h
  obtain ⟨⟨⟨⟨⟨h1, h2⟩, -⟩, -⟩, -⟩, -⟩ := h
  refine ⟨fun a ha => h1 a (mem_rootList ha), fun a ha ht => h2 a ha _ ?_, fun a ha ht => h2 a ha _ ?_,
    fun a ha ht i hi he => h2 a ha _ ?_⟩ <;> unfold refs
  · rw [if_pos ht]; simp
  · rw [if_pos ht]; simp
  · rw [if_pos ht]
    refine List.mem_append_right _ (List.mem_flatMap.2 ⟨i, ?_, ?_⟩)
    · rw [List.mem_range]; omega
    · rw [if_pos he]; simp

/-- The check is right. -/
theorem sound_of_check {l : List Int} (h : check s l = true) : Sound s := by
  have hcl := check_closed h
  refine SoundOn.mono (P := (· ∈ l)) ?_ (fun a ha => hcl.reach ha)
  simp only [check, Bool.and_eq_true, List.all_eq_true, List.contains_iff_mem, decide_eq_true_eq] at h
  obtain ⟨⟨⟨⟨⟨-, -⟩, h3⟩, h4⟩, h5⟩, h6⟩ := h
  have hfine : ∀ a ∈ l, (∀ x ∈ cells s a, 3 ≤ x ∧ x < s.free) ∧ (s.cell a).tag ≠ .brokenHeart ∧
      (isBlock (s.cell a).tag → 0 ≤ (s.cell a).car ∧ ∀ i : Nat, i < (s.cell a).car →
        ((s.cell ((s.cell a).cdr + (i : Int))).tag = .ref ∨ (s.cell ((s.cell a).cdr + (i : Int))).tag = .number ∨
        (s.cell ((s.cell a).cdr + (i : Int))).tag = .char)) ∧
      ((s.cell a).tag = .bytes → (s.cell a).car = (s.cell a).bytes.length ∧ 0 < (s.cell a).bytes.length) ∧
      ((s.cell a).tag ≠ .bytes → (s.cell a).bytes = []) := by
    intro a ha
    have := h3 a ha
    simp only [fine, Bool.and_eq_true, List.all_eq_true, decide_eq_true_eq] at this
    obtain ⟨⟨⟨f1, f2⟩, f3⟩, f4⟩ := this
    refine ⟨f1, f2, fun hb => ?_, fun hb => ?_, fun hb => ?_⟩
    · rw [if_pos hb] at f3
      simp only [Bool.and_eq_true, List.all_eq_true, decide_eq_true_eq, List.mem_range] at f3
      exact ⟨f3.1, fun i hi => f3.2 i (by omega)⟩
    · rw [if_pos hb] at f4; simpa using f4
    · rw [if_neg hb] at f4; simpa using f4
  have hmem : ∀ a ∈ l, ∀ x, Owns s a x → x ∈ cells s a := fun a ha x hx =>
    mem_cells (fun hb => ((hfine a ha).2.2.1 hb).1) (fun hb => by
      have := ((hfine a ha).2.2.2.1 hb).2
      unfold bytesCells
      omega) hx
  refine ⟨h5.1, fun a h1 h2 => ?_, fun a ha x hx => (hfine a ha).1 x (hmem a ha x hx),
    fun a b x ha hb h1 h2 => flat_disjoint h4 ha hb (hmem a ha x h1) (hmem b hb x h2), fun a ha hb hc => ?_,
    fun a ha hb => ((hfine a ha).2.2.1 hb).1, fun a ha hb => ((hfine a ha).2.2.1 hb).2,
    fun a ha hb => ((hfine a ha).2.2.2.1 hb).1, fun a ha hb => (hfine a ha).2.2.2.2 hb, fun a ha => (hfine a ha).2.1, h5.2⟩
  · have := h6 (a - 3).toNat (by simp only [c_nil, c_symbol_max] at h1 h2; rw [List.mem_range]; omega)
    rw [show (3 : Int) + ((a - 3).toNat : Int) = a by simp only [c_nil] at h1; omega] at this
    exact this
  · have hn := flat_nodup h4 ha
    unfold cells at hn
    rw [if_pos hb, List.nodup_cons] at hn
    exact hn.1 (List.mem_map.2 ⟨(a - (s.cell a).cdr).toNat, by rw [List.mem_range]; omega, by omega⟩)

end Mes.Gc
