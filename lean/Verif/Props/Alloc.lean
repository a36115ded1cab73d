import Verif.Proof.Alloc
import Verif.Spec.Sample
/-
Property C04: allocation (/repo/src/gc.c:156-316, /repo/src/vector.c:32, /repo/src/struct.c:24).
-/
namespace Mes.Props
open Res Spec

/-- A request for memory. -/
inductive Req where
  /-- `make_cell`, `make_pointer_cell`, `make_value_cell`: pairs, numbers, characters, references, macros, … -/
  | cell (t : Tag) (a d : Int)
  | bytes (bs : List Byte)
  | string (bs : List Byte)
  | vector (k : Nat) (e : Int)
  | struct (type : Int) (fields : Int) (printer : Int)

/-- What it runs. -/
def Req.run (s : St) (fuel : Nat) : Req → Res (Int × St)
  | .cell t a d => makeCell s t a d
  | .bytes bs => makeBytes s bs
  | .string bs => makeString s bs
  | .vector k e => makeVector s k e
  | .struct t f p => makeStruct s fuel t f p

/-- The operands are values of the program. -/
def Req.Fine (s : St) (fuel : Nat) : Req → Prop
  | .vector _ e => s.Valid e
  | .struct t f p => s.Valid t ∧ s.Valid p ∧ ∃ xs : List Int, ListOf s (fun a _ => s.Valid a) f xs ∧ xs.length < fuel
  | _ => True

theorem makeVector_grows {s : St} {k : Nat} {e : Int} (h : Room s 0) (he : s.Valid e) :
    makeVector s k e = abort ∨
    ∃ s', makeVector s k e = ok (s.free, s') ∧ Ext s s' ∧ s.free + 1 + k ≤ s'.free ∧ Room s' 0 := by
  rcases alloc_cases (n := 1) h (by omega) with h1 | ⟨h1, r1⟩
  · exact .inl (by simp [makeVector, h1])
  have r1' : Room { s with free := s.free + 1 } 0 := ⟨by have := r1.base; simp only; omega, by have := r1.room; simp only; omega⟩
  rcases alloc_cases (s := { s with free := s.free + 1 }) (n := k) r1' (by omega) with h2 | ⟨h2, r2⟩
  · exact .inl (by simp [makeVector, h1, h2])
  have hb := h.base
  simp only [c_symbol_max] at hb
  simp only at h2 r2
  let s2 : St := { s with free := s.free + 1 + k }
  have hv2 : s2.Valid s.free := ⟨by omega, by show s.free < s.free + 1 + k; omega⟩
  let s3 := s2.upd s.free { tag := .vector, car := k, cdr := s.free + 1 }
  have e3 : Ext s s3 := (show Ext s s2 from ⟨by show s.free ≤ s.free + 1 + k; omega, fun _ _ _ => rfl, rfl⟩).trans'
    (upd_frame ..) (fun a h1 h2 => by omega)
  have r3 : Room s3 0 := ⟨by show c_symbol_max ≤ s.free + 1 + k; simp only [c_symbol_max]; omega,
    by have := r2.room; show s.free + 1 + k + 0 - g_cells ≤ s.arena; simp only at this; omega⟩
  have hg := fillVector_grows (b := s.free) (e := e) (n := k) (s := s3) (v := s.free + 1) r3 (by omega) (by omega)
    (by show s.free + 1 + k ≤ s.free + 1 + k; omega) (e3.valid he)
  have heq : makeVector s k e = (fillVector k s3 (s.free + 1) e >>= fun s => ok (s2.free - 1 - k, s)) := by
    have : s2.free - 1 - k = s.free := by show s.free + 1 + k - 1 - k = s.free; omega
    simp only [makeVector, h1, h2, ok_bind, this]
    rw [show ({ s with free := s.free + 1 + (k : Int) } : St) = s2 from rfl, St.put_ok _ hv2]
    simp only [ok_bind, Int.toNat_natCast]
    rfl
  rcases hg with hg | ⟨s', g1, g2, g3⟩
  · exact .inl (by rw [heq, hg]; rfl)
  · refine .inr ⟨s', ?_, e3.trans' g2 (fun a h1 h2 => by omega), ?_, g3⟩
    · rw [heq, g1]
      have : s2.free - 1 - k = s.free := by show s.free + 1 + k - 1 - k = s.free; omega
      simp only [ok_bind, this]
    · have := g2.le; exact this

theorem makeStruct_grows {s : St} {fuel : Nat} {t f p : Int} {xs : List Int} (h : Room s 0) (ht : s.Valid t)
    (hp : s.Valid p) (hl : ListOf s (fun a _ => s.Valid a) f xs) (hf : xs.length < fuel) :
    makeStruct s fuel t f p = abort ∨
    ∃ s', makeStruct s fuel t f p = ok (s.free, s') ∧ Ext s s' ∧ s.free + 3 + xs.length ≤ s'.free ∧ Room s' 0 := by
  have hlen : length__ s fuel f = ok (xs.length : Int) := length_ok hl hf
  rcases alloc_cases (n := 1) h (by omega) with h1 | ⟨h1, r1⟩
  · exact .inl (by simp [makeStruct, hlen, h1])
  have r1' : Room { s with free := s.free + 1 } 0 := ⟨by have := r1.base; simp only; omega, by have := r1.room; simp only; omega⟩
  rcases alloc_cases (s := { s with free := s.free + 1 }) (n := 2 + xs.length) r1' (by omega) with h2 | ⟨h2, r2⟩
  · exact .inl (by simp [makeStruct, hlen, h1, h2])
  have hb := h.base
  simp only [c_symbol_max] at hb
  simp only at h2 r2
  let s2 : St := { s with free := s.free + 1 + (2 + xs.length) }
  have hv2 : s2.Valid s.free := ⟨by omega, by show s.free < s.free + 1 + (2 + xs.length); omega⟩
  let s3 := s2.upd s.free { tag := .struct, car := 2 + xs.length, cdr := s.free + 1 }
  have e3 : Ext s s3 := (show Ext s s2 from ⟨by show s.free ≤ s.free + 1 + (2 + xs.length); omega,
    fun _ _ _ => rfl, rfl⟩).trans' (upd_frame ..) (fun a h1 h2 => by omega)
  have r3 : Room s3 0 := ⟨by show c_symbol_max ≤ s.free + 1 + (2 + xs.length); simp only [c_symbol_max]; omega,
    by have := r2.room; show s.free + 1 + (2 + xs.length) + 0 - g_cells ≤ s.arena; simp only at this; omega⟩
  have f3 : s3.free = s.free + 1 + (2 + xs.length) := rfl
  have hg : Grows s.free s3 (do
      let s ← setEntry s3 (s.free + 1) t
      let s ← setEntry s (s3.free - xs.length - 1) p
      fillStruct xs.length s (s3.free - xs.length) f) := by
    refine (setEntry_grows r3 ⟨by omega, by omega⟩ (e3.valid ht) (by omega)).bind fun s4 g4 r4 => ?_
    have := g4.le
    refine (setEntry_grows r4 ⟨by omega, by omega⟩ (g4.valid (e3.valid hp)) (by omega)).bind fun s5 g5 r5 => ?_
    have := g5.le
    have e5 : Ext s s5 := (e3.trans' g4 (fun a h1 h2 => by omega)).trans' g5 (fun a h1 h2 => by omega)
    refine fillStruct_grows (xs := xs) r5 (by omega) (by omega) (by omega)
      (hl.ext e5 (fun a _ h => e5.valid h)) (fun a ha => ?_)
    have hl5 := hl.ext e5 (R' := fun a _ => s.Valid a) (fun a _ h => h)
    revert ha
    have : ∀ {q : Int} {ys : List Int}, ListOf s (fun a _ => s.Valid a) q ys → PairOf s5 q a → a < s.free := by
      intro q ys hq
      induction hq with
      | nil => intro ha; cases ha <;> exact absurd rfl ‹_›
      | @cons q y ys hne hq ht hy _ ih =>
        intro ha
        cases ha with
        | here => exact hq.2
        | next _ ha => rw [e5.same q hq.2 id] at ha; exact ih ha
    exact this hl
  have heq : makeStruct s fuel t f p = ((do
      let s ← setEntry s3 (s.free + 1) t
      let s ← setEntry s (s3.free - xs.length - 1) p
      fillStruct xs.length s (s3.free - xs.length) f) >>= fun s' => ok (s.free, s')) := by
    have i1 : s3.free - xs.length - 1 = s.free + 1 + 1 := by omega
    have i2 : s3.free - xs.length = s.free + 1 + 2 := by omega
    rw [i1, i2]
    simp only [makeStruct, hlen, h1, h2, ok_bind]
    rw [show ({ s with free := s.free + 1 + (2 + (xs.length : Int)) } : St) = s2 from rfl, St.put_ok _ hv2]
    rw [show (2 + (xs.length : Int) - 2).toNat = xs.length by omega]
    simp only [ok_bind, bind_assoc']
    rfl
  rcases hg with hg | ⟨s', g1, g2, g3⟩
  · exact .inl (by rw [heq, hg]; rfl)
  · refine .inr ⟨s', by rw [heq, g1]; rfl, e3.trans' g2 (fun a h1 h2 => by omega), ?_, g3⟩
    have := g2.le; omega

/-- Every allocation stops with the out-of-memory message (or, for a string, the too-long error), or returns the first
free cell, leaves every allocated cell and all registers as they were, and stays inside the arena. -/
theorem C04_allocation {s : St} {fuel : Nat} {q : Req} (h : Room s 0) (hq : q.Fine s fuel) :
    q.run s fuel = abort ∨ (q.run s fuel = err .systemError ∧ ∃ bs, q = .string bs ∧ s.maxString < bs.length) ∨
    ∃ s', q.run s fuel = ok (s.free, s') ∧ Ext s s' ∧ s.free < s'.free ∧ s'.free - g_cells ≤ s'.arena := by
  have hb := h.base
  simp only [c_symbol_max] at hb
  have bytes_case : ∀ (s : St) (bs : List Byte), Room s 0 → makeBytes s bs = abort ∨
      ∃ s', makeBytes s bs = ok (s.free, s') ∧ Ext s s' ∧ s.free < s'.free ∧ Room s' 0 := by
    intro s bs h
    have hb := h.base
    simp only [c_symbol_max] at hb
    have hpos : (1 : Int) ≤ bytesCells bs.length := by unfold bytesCells; omega
    rcases alloc_cases (n := bytesCells bs.length) h (by omega) with h1 | ⟨h1, r1⟩
    · exact .inl (by simp [makeBytes, h1])
    have hv : ({ s with free := s.free + bytesCells bs.length } : St).Valid s.free := ⟨by omega, by simp only; omega⟩
    refine .inr ⟨_, ?_, (alloc_frame (n := bytesCells bs.length) (by omega)).trans' (upd_frame _ s.free
      { tag := .bytes, car := bs.length, cdr := 0, bytes := bs }) (fun a h1 h2 => by omega), ?_, ?_⟩
    · simp only [makeBytes, h1, ok_bind, St.put_ok _ hv]
    · simp only [St.upd_free]; omega
    · exact ⟨by simp only [St.upd_free, c_symbol_max]; omega, by have := r1.room; simp only [St.upd_free, St.upd_arena]; omega⟩
  match q with
  | .cell t a d =>
    rcases makeCell_cases h t a d with h1 | ⟨h1, h2⟩
    · exact .inl h1
    · refine .inr (.inr ⟨_, h1, push_ext .., by simp; omega, ?_⟩)
      have := h2.room
      simp only [St.push_free, St.push_arena]; omega
  | .bytes bs =>
    rcases bytes_case s bs h with h1 | ⟨s', h1, h2, h3, h4⟩
    · exact .inl h1
    · exact .inr (.inr ⟨s', h1, h2, h3, by have := h4.room; omega⟩)
  | .string bs =>
    by_cases hm : s.maxString < bs.length
    · exact .inr (.inl ⟨by simp [Req.run, makeString, hm], bs, rfl, hm⟩)
    · rcases makeCell_cases h .string bs.length 0 with h1 | ⟨h1, h2⟩
      · exact .inl (by simp [Req.run, makeString, hm, h1])
      · let s1 := s.push { tag := .string, car := bs.length, cdr := 0 }
        have e1 : Ext s s1 := push_ext ..
        have r1 : Room s1 0 := h2.step e1 (by show s.free + 1 + 0 ≤ s.free + 1; omega)
        have f1 : s1.free = s.free + 1 := rfl
        rcases bytes_case s1 (bs ++ [0]) r1 with h3 | ⟨s2, h3, h4, h5, h6⟩
        · exact .inl (by simp only [Req.run, makeString, hm, if_false, h1, ok_bind]; rw [h3]; rfl)
        · have hv2 : s2.Valid s.free := ⟨by omega, by omega⟩
          refine .inr (.inr ⟨_, ?_, (e1.trans h4).trans' (upd_frame s2 s.free { s2.cell s.free with cdr := s1.free })
            (fun a h1 h2 => by omega), ?_, ?_⟩)
          · simp only [Req.run, makeString, hm, if_false, h1, ok_bind]
            rw [h3]
            simp only [ok_bind, St.setCdr, St.rd_ok hv2, St.put_ok _ hv2]
          · simp only [St.upd_free]; omega
          · have := h6.room; simp only [St.upd_free, St.upd_arena]; omega
  | .vector k e =>
    rcases makeVector_grows (k := k) h hq with h1 | ⟨s', h1, h2, h3, h4⟩
    · exact .inl h1
    · exact .inr (.inr ⟨s', h1, h2, by omega, by have := h4.room; omega⟩)
  | .struct t f p =>
    obtain ⟨h1, h2, xs, h3, h4⟩ := hq
    rcases makeStruct_grows h h1 h2 h3 h4 with h1 | ⟨s', h1, h2, h3, h4⟩
    · exact .inl h1
    · exact .inr (.inr ⟨s', h1, h2, by omega, by have := h4.room; omega⟩)

/-- The bytes of a byte object lie inside its own block: the payload starts behind the first two words of a cell of
three words (`cell_bytes`, /repo/src/gc.c:36-41), and an empty one has its NUL. -/
theorem C04_bytes_fit {s s' : St} {bs : List Byte} {r : Int} (h : Room s 0) (hs : makeBytes s bs = ok (r, s')) :
    r = s.free ∧ (2 * 8 : Int) + max 1 bs.length ≤ 24 * (s'.free - r) := by
  rcases alloc_cases (n := bytesCells bs.length) h (by unfold bytesCells; omega) with h1 | ⟨h1, -⟩
  · simp [makeBytes, h1] at hs
  · simp only [makeBytes, h1, ok_bind, bind_eq_ok] at hs
    obtain ⟨s'', h2, h3⟩ := hs
    unfold St.put at h2
    split at h2
    · cases h2; cases h3
      refine ⟨rfl, ?_⟩
      simp only [St.upd_free]
      unfold bytesCells
      omega
    · cases h2
example : ∃ r s', makeBytes (sample []) [104, 105] = ok (r, s') := by
  obtain ⟨r, s', h, -⟩ := ok_of_free (m := makeBytes (sample []) [104, 105]) (n := 119) (by decide)
  exact ⟨r, s', h⟩

/-- A history of allocations from `s0`; each entry is the block `[start, stop)` handed out and the state after it. -/
inductive AllocRun (s0 : St) : St → List (Int × Int × St) → Prop
  | start : AllocRun s0 s0 []
  | step {s s' : St} {bs : List (Int × Int × St)} {fuel : Nat} {q : Req} {r : Int} (h : AllocRun s0 s bs)
      (hq : q.Fine s fuel) (hs : q.run s fuel = ok (r, s')) : AllocRun s0 s' ((r, s'.free, s') :: bs)

/-- Over any history: no two blocks overlap, none is empty, none overlaps a cell that existed at the start, all lie in
the arena, and every block still has the contents it was given. -/
theorem C04_history {s0 s : St} {bs : List (Int × Int × St)} (h0 : Room s0 0) (h : AllocRun s0 s bs) :
    Ext s0 s ∧ s.free - g_cells ≤ s.arena ∧
    bs.Pairwise (fun A B => A.2.1 ≤ B.1 ∨ B.2.1 ≤ A.1) ∧
    ∀ A ∈ bs, s0.free ≤ A.1 ∧ A.1 < A.2.1 ∧ A.2.1 ≤ s.free ∧ ∀ a, A.1 ≤ a → a < A.2.1 → s.cell a = A.2.2.cell a := by
  have key : Ext s0 s ∧ Room s 0 ∧ bs.Pairwise (fun A B => B.2.1 ≤ A.1) ∧ ∀ A ∈ bs, s0.free ≤ A.1 ∧ A.1 < A.2.1 ∧
      A.2.1 ≤ s.free ∧ ∀ a, A.1 ≤ a → a < A.2.1 → s.cell a = A.2.2.cell a := by
    induction h with
    | start => exact ⟨.refl .., h0, .nil, by simp⟩
    | @step s s' bs fuel q r _ hq hs ih =>
      obtain ⟨i1, i2, i3, i4⟩ := ih
      rcases C04_allocation (fuel := fuel) i2 hq with h1 | ⟨h1, -⟩ | ⟨s'', h1, h2, h3, h4⟩
      · rw [hs] at h1; cases h1
      · rw [hs] at h1; cases h1
      · rw [hs] at h1; cases h1
        refine ⟨i1.trans h2, ⟨Int.le_trans i2.base h2.le, by omega⟩, List.pairwise_cons.2 ⟨fun B hB => (i4 B hB).2.2.1, i3⟩,
          fun A hA => ?_⟩
        rcases List.mem_cons.1 hA with rfl | hA
        · exact ⟨i1.le, h3, Int.le_refl _, fun _ _ _ => rfl⟩
        · obtain ⟨j1, j2, j3, j4⟩ := i4 A hA
          exact ⟨j1, j2, by have := h2.le; omega, fun a ha hb => by rw [h2.same a (by omega) id, j4 a ha hb]⟩
  obtain ⟨k1, k2, k3, k4⟩ := key
  exact ⟨k1, by have := k2.room; omega, k3.imp (fun h => .inr h), k4⟩

example : Room (sample [num 5]) 0 ∧ (Req.vector 3 116).Fine (sample [num 5]) 9 ∧
    (Req.struct 116 c_nil 116).Fine (sample [num 5]) 9 :=
  ⟨⟨by decide, by decide⟩, (by decide : St.Valid _ _), (by decide : St.Valid _ _), (by decide : St.Valid _ _), [], .nil,
    by decide⟩
example : ∃ s bs, AllocRun (sample [num 5]) s bs ∧ bs.length = 1 := by
  obtain ⟨r, s', h, -⟩ := ok_of_free (m := (Req.vector 3 116).run (sample [num 5]) 9) (n := 121) (by decide)
  exact ⟨s', _, .step .start (fuel := 9) (q := .vector 3 116) (by decide : St.Valid _ _) h, rfl⟩

/-- The full property includes a vector size given by the program, whatever its sign. -/
def VectorSafe : Prop :=
  ∀ (s : St) (k e : Int), Room s 0 → s.Valid e → makeVector s k e ≠ ub

/-- False for a negative size: (make-vector -2) moves the free pointer back over earlier cells, so that the header of
the vector is written to a cell which is not allocated, and which the next allocation hands out again. -/
theorem C04_vector_size_false : ¬ VectorSafe := by
  intro h
  exact h (sample [num 5, num 6, num 7]) (-2) 116 ⟨by decide, by decide⟩ (by decide) (by
    have e : (do let (_, s) ← makeVector (sample [num 5, num 6, num 7]) (-2) 116; ok s.free) = ub := by decide
    cases hm : makeVector (sample [num 5, num 6, num 7]) (-2) 116 with
    | ub => rfl
    | _ => rw [hm] at e; cases e)

example : (do let (x, s) ← alloc (sample [num 5, num 6, num 7]) 1
              let (_, s) ← alloc s (-2)
              ok (x, s.free)) = ok (119, 118) := by decide

end Mes.Props
