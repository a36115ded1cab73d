import Verif.Proof.Array
import Verif.Spec.Sample
import Verif.Props.Math
/-
Properties C06-C09: vectors and structs (/repo/src/vector.c, /repo/src/struct.c).

`IsArr t s x vs` (Spec/Array.lean): the vector or struct at `x` has the elements `vs`; `ValAt s p v`: the address `p`
denotes the value `v` (numbers and characters by value, everything else by identity).
-/
namespace Mes.Props
open Res Spec

/-- An array the program knows: its type, its address, and the values a simple model of arrays says it has. -/
structure Arr where
  tag : Tag
  addr : Int
  vals : List Val

/-- The states a program can reach from `s0` by creating, reading and writing vectors and structs within their bounds,
mixed with any amount of other allocation and changes of pairs.  The list is the abstract contents: a store replaces
one element of one array, nothing else ever changes it.  The second list holds the results of earlier reads: the address
returned and the value it had. -/
inductive ArrRun (s0 : St) : St → List Arr → List (Int × Val) → Prop
  | start : ArrRun s0 s0 [] []
  | makeVector {s s' : St} {W : List Arr} {H : List (Int × Val)} {k : Nat} {e x : Int} {v : Val}
      (h : ArrRun s0 s W H) (hr : Room s (2 * k + 1)) (he : ValAt s e v) (hs : makeVector s k e = ok (x, s')) : ArrRun s0 s' (⟨.vector, x, List.replicate k v⟩ :: W) H
  | listToVector {s s' : St} {W : List Arr} {H : List (Int × Val)} {fuel : Nat} {l x : Int} {vs : List Val}
      (h : ArrRun s0 s W H) (hr : Room s (3 * vs.length + 1))
      (hu : ValAt s c_unspecified (.obj c_unspecified)) (hl : ListOf s (ValAt s) l vs) (hf : vs.length < fuel) (hs : listToVector s fuel l = ok (x, s')) :
      ArrRun s0 s' (⟨.vector, x, vs⟩ :: W) H
  | makeStruct {s s' : St} {W : List Arr} {H : List (Int × Val)} {fuel : Nat} {ty fields pr x : Int} {tv pv : Val}
      {vs : List Val} (h : ArrRun s0 s W H) (hr : Room s (2 * vs.length + 5)) (ht : ValAt s ty tv) (hp : ValAt s pr pv)
      (hl : ListOf s (ValAt s) fields vs) (hf : vs.length < fuel) (hs : makeStruct s fuel ty fields pr = ok (x, s')) :
      ArrRun s0 s' (⟨.struct, x, tv :: pv :: vs⟩ :: W) H
  | vectorSet {s s' : St} {V W : List Arr} {H : List (Int × Val)} {x e u : Int} {vs : List Val} {i : Nat} {v : Val}
      (h : ArrRun s0 s (V ++ ⟨.vector, x, vs⟩ :: W) H) (hr : Room s 1) (hi : i < vs.length) (he : ValAt s e v)
      (hs : vectorSet s x i e = ok (u, s')) : ArrRun s0 s' (V ++ ⟨.vector, x, vs.set i v⟩ :: W) H
  | structSet {s s' : St} {V W : List Arr} {H : List (Int × Val)} {x e u : Int} {vs : List Val} {i : Nat} {v : Val}
      (h : ArrRun s0 s (V ++ ⟨.struct, x, vs⟩ :: W) H) (hr : Room s 1) (hi : i < vs.length) (he : ValAt s e v)
      (hs : structSet s x i e = ok (u, s')) : ArrRun s0 s' (V ++ ⟨.struct, x, vs.set i v⟩ :: W) H
  | vectorRef {s s' : St} {W : List Arr} {H : List (Int × Val)} {x r : Int} {vs : List Val} {i : Nat} {v : Val}
      (h : ArrRun s0 s W H) (hx : ⟨.vector, x, vs⟩ ∈ W) (hr : Room s 1) (hi : vs[i]? = some v) (hs : vectorRef s x i = ok (r, s')) :
      ArrRun s0 s' W ((r, v) :: H)
  | structRef {s s' : St} {W : List Arr} {H : List (Int × Val)} {x r : Int} {vs : List Val} {i : Nat} {v : Val}
      (h : ArrRun s0 s W H) (hx : ⟨.struct, x, vs⟩ ∈ W) (hr : Room s 1) (hi : vs[i]? = some v) (hs : structRef s x i = ok (r, s')) :
      ArrRun s0 s' W ((r, v) :: H)
  | other {s s' : St} {W : List Arr} {H : List (Int × Val)} {P : Int → Prop} (h : ArrRun s0 s W H) (hf : Frame P s s')
      (hp : ∀ a, P a → (s.cell a).tag = .pair ∧ (s'.cell a).tag = .pair) : ArrRun s0 s' W H

/-- What holds in every such state. -/
structure ArrInv (s : St) (W : List Arr) (H : List (Int × Val)) : Prop where
  arr : ∀ A ∈ W, IsArr A.tag s A.addr A.vals
  tag : ∀ A ∈ W, A.tag = .vector ∨ A.tag = .struct
  apart : W.Pairwise (fun A B => Apart s A.addr A.vals.length B.addr B.vals.length)
  held : ∀ h ∈ H, ValAt s h.1 h.2
  own : ∀ h ∈ H, ∀ A ∈ W, ∀ j : Nat, j < A.vals.length → h.1 ≠ (s.cell A.addr).cdr + j

section
variable {s s' : St} {W : List Arr} {H : List (Int × Val)} {t : Tag} {x : Int} {vs : List Val}

theorem vectorRef_val {i : Nat} {v : Val} (hr : Room s 1) (h : IsArr .vector s x vs) (hi : vs[i]? = some v) :
    ∃ r s', vectorRef s x i = ok (r, s') ∧ ValAt s' r v ∧ Ext s s' ∧ (s.free ≤ r ∨ Solid (s'.cell r).tag) := by
  obtain ⟨r, s', h1, h2, h3, -, h5⟩ := fetch_ok hr (h.entry i v hi)
  refine ⟨r, s', ?_, h2, h3, h5⟩
  have hl : i < vs.length := by
    rcases Nat.lt_or_ge i vs.length with h | h
    · exact h
    · rw [List.getElem?_eq_none h] at hi; cases hi
  simp only [vectorRef, St.rd_ok h.valid, ok_bind, assert_true h.tag, h.length,
    assert_true (show (i : Int) < vs.length by omega), h1]

theorem structRef_val {i : Nat} {v : Val} (hr : Room s 1) (h : IsArr .struct s x vs) (hi : vs[i]? = some v) :
    ∃ r s', structRef s x i = ok (r, s') ∧ ValAt s' r v ∧ Ext s s' ∧ (s.free ≤ r ∨ Solid (s'.cell r).tag) := by
  obtain ⟨r, s', h1, h2, h3, -, h5⟩ := fetch_ok hr (h.entry i v hi)
  refine ⟨r, s', ?_, h2, h3, h5⟩
  have hl : i < vs.length := by
    rcases Nat.lt_or_ge i vs.length with h | h
    · exact h
    · rw [List.getElem?_eq_none h] at hi; cases hi
  simp only [structRef, St.rd_ok h.valid, ok_bind, assert_true h.tag, h.length,
    assert_true (show (i : Int) < vs.length by omega), h1]

/-- Both stores are a bounds check and `setEntry`. -/
theorem vectorSet_eq {i : Nat} (e : Int) (h : IsArr .vector s x vs) (hi : i < vs.length) :
    vectorSet s x i e = (setEntry s ((s.cell x).cdr + i) e >>= fun s' => ok (c_unspecified, s')) := by
  simp only [vectorSet, St.rd_ok h.valid, ok_bind, assert_true h.tag, h.length,
    assert_true (show (i : Int) < vs.length by omega)]

theorem structSet_eq {i : Nat} (e : Int) (h : IsArr .struct s x vs) (hi : i < vs.length) :
    structSet s x i e = (setEntry s ((s.cell x).cdr + i) e >>= fun s' => ok (c_unspecified, s')) := by
  simp only [structSet, St.rd_ok h.valid, ok_bind, assert_true h.tag, h.length,
    assert_true (show (i : Int) < vs.length by omega)]

theorem ArrInv.ext (h : ArrInv s W H) (hf : Ext s s') : ArrInv s' W H := by
  refine ⟨fun A hA => (h.arr A hA).ext hf, h.tag, h.apart.imp_of_mem fun {A B} hA hB hab => ?_,
    fun k hk => (h.held k hk).ext hf, fun k hk A hA j hj => ?_⟩
  · unfold Apart at *
    rwa [hf.same _ (h.arr A hA).valid.2 id, hf.same _ (h.arr B hB).valid.2 id]
  · rw [hf.same _ (h.arr A hA).valid.2 id]; exact h.own k hk A hA j hj

/-- An element was read. -/
theorem ArrInv.hold {r : Int} {v : Val} (h : ArrInv s W H) (hf : Ext s s') (hr : ValAt s' r v)
    (hn : s.free ≤ r ∨ Solid (s'.cell r).tag) : ArrInv s' W ((r, v) :: H) := by
  have h' := h.ext hf
  refine ⟨h'.arr, h'.tag, h'.apart, fun k hk => ?_, fun k hk A hA j hj => ?_⟩
  · rcases List.mem_cons.1 hk with rfl | hk
    · exact hr
    · exact h'.held k hk
  · rcases List.mem_cons.1 hk with rfl | hk
    · rcases hn with hn | hn
      · have h1 := ((h.arr A hA).entry j A.vals[j] (by simp [hj])).valid.2
        rw [hf.same _ (h.arr A hA).valid.2 id]
        intro e; simp only at e; omega
      · intro e
        simp only at e
        exact ((h'.arr A hA).entry j A.vals[j] (by simp [hj])).not_solid (e ▸ hn)
    · exact h'.own k hk A hA j hj

/-- A new array in fresh cells. -/
theorem ArrInv.add (h : ArrInv s W H) (hf : Ext s s') (ht : t = .vector ∨ t = .struct) (hx : IsArr t s' x vs)
    (hn : s.free ≤ x) (hc : (s'.cell x).cdr = x + 1) : ArrInv s' (⟨t, x, vs⟩ :: W) H := by
  have h' := h.ext hf
  refine ⟨fun A hA => ?_, fun A hA => ?_, List.pairwise_cons.2 ⟨fun B hB => ?_, h'.apart⟩,
    h'.held, fun k hk A hA j hj => ?_⟩
  · rcases List.mem_cons.1 hA with rfl | hA
    · exact hx
    · exact h'.arr A hA
  · rcases List.mem_cons.1 hA with rfl | hA
    · exact ht
    · exact h.tag A hA
  · have hB1 := h.arr B hB
    unfold Apart
    by_cases h0 : B.vals.length = 0
    · exact .inr (.inr (.inr h0))
    · right; left
      have := (hB1.entry (B.vals.length - 1) (B.vals[B.vals.length - 1]'(by omega)) (by simp)).valid.2
      have e := hf.same _ hB1.valid.2 id
      show _ ≤ (s'.cell x).cdr
      rw [e, hc]; omega
  · rcases List.mem_cons.1 hA with rfl | hA
    · have := (h.held k hk).valid.2
      show _ ≠ (s'.cell x).cdr + _
      omega
    · exact h'.own k hk A hA j hj

/-- A store into one element. -/
theorem ArrInv.store {V W : List Arr} {i : Nat} {e : Int} {v : Val} (h : ArrInv s (V ++ ⟨t, x, vs⟩ :: W) H)
    (hr : Room s 1) (hi : i < vs.length) (he : ValAt s e v)
    (hs : setEntry s ((s.cell x).cdr + i) e = ok s') : ArrInv s' (V ++ ⟨t, x, vs.set i v⟩ :: W) H := by
  have hx := h.arr ⟨t, x, vs⟩ (by simp)
  have hent := hx.entry i vs[i] (by simp [hi])
  obtain ⟨s'', g1, g2, g3, g4, -⟩ := setEntry_ok hr hent.valid hent.not_solid he
  rw [hs] at g1; cases g1
  have hdr : ∀ A ∈ V ++ ⟨t, x, vs⟩ :: W, s'.cell A.addr = s.cell A.addr := fun A hA => by
    have hA1 := h.arr A hA
    refine g2.same _ hA1.valid.2 (fun e => hent.not_solid ?_)
    rw [← e]
    have ht := hA1.tag
    rcases h.tag A hA with h | h <;> rw [h] at ht <;> rw [ht] <;> decide
  have hother : ∀ A ∈ V ++ ⟨t, x, vs⟩ :: W, Apart s A.addr A.vals.length x vs.length → IsArr A.tag s' A.addr A.vals :=
      fun A hA hap => by
    have hA1 := h.arr A hA
    refine hA1.keep (hdr A hA) (fun _ => g2.valid) (fun j hj => ?_) g4
    refine g2.same _ (hA1.entry j A.vals[j] (by simp [hj])).valid.2 (fun e => ?_)
    simp only at e; unfold Apart at hap; omega
  have hap := h.apart
  rw [List.pairwise_append] at hap
  obtain ⟨p1, p2, p3⟩ := hap
  rw [List.pairwise_cons] at p2
  have hself : IsArr t s' x (vs.set i v) := by
    have e := hdr ⟨t, x, vs⟩ (by simp)
    simp only at e
    refine ⟨g2.valid hx.valid, by rw [e]; exact hx.tag, by rw [e]; simpa using hx.length, fun j w hj => ?_⟩
    rw [e]
    rw [List.getElem?_set] at hj
    by_cases hij : i = j
    · subst hij
      rw [if_pos rfl, if_pos hi] at hj
      cases hj; exact g3
    · rw [if_neg hij] at hj
      have hw := hx.entry j w hj
      exact hw.keep g2.valid (g2.same _ hw.valid.2 (by omega)) g4
  refine ⟨fun A hA => ?_, fun A hA => ?_, ?_, fun k hk => ?_, fun k hk A hA j hj => ?_⟩
  · rcases List.mem_append.1 hA with hA | hA
    · exact hother A (by simp [hA]) (p3 A hA ⟨t, x, vs⟩ (by simp))
    · rcases List.mem_cons.1 hA with rfl | hA
      · exact hself
      · refine hother A (by simp [hA]) ?_
        have := p2.1 A hA
        unfold Apart at *; simp only at *; omega
  · rcases List.mem_append.1 hA with hA | hA
    · exact h.tag A (by simp [hA])
    · rcases List.mem_cons.1 hA with rfl | hA
      · exact h.tag ⟨t, x, vs⟩ (by simp)
      · exact h.tag A (by simp [hA])
  · rw [List.pairwise_append, List.pairwise_cons]
    refine ⟨p1.imp_of_mem fun {A B} hA hB hab => ?_, ⟨fun A hA => ?_, p2.2.imp_of_mem fun {A B} hA hB hab => ?_⟩,
      fun A hA B hB => ?_⟩
    · unfold Apart at *; rwa [hdr A (by simp [hA]), hdr B (by simp [hB])]
    · have := p2.1 A hA
      have e := hdr ⟨t, x, vs⟩ (by simp)
      unfold Apart at *; simp only [List.length_set] at *
      rwa [hdr A (by simp [hA]), e]
    · unfold Apart at *; rwa [hdr A (by simp [hA]), hdr B (by simp [hB])]
    · rcases List.mem_cons.1 hB with rfl | hB
      · have := p3 A hA ⟨t, x, vs⟩ (by simp)
        have e := hdr ⟨t, x, vs⟩ (by simp)
        unfold Apart at *; simp only [List.length_set] at *
        rwa [hdr A (by simp [hA]), e]
      · have := p3 A hA B (by simp [hB])
        unfold Apart at *; rwa [hdr A (by simp [hA]), hdr B (by simp [hB])]
  · refine (h.held k hk).keep g2.valid (fun _ => g2.same _ (h.held k hk).valid.2 ?_) g4
    exact h.own k hk ⟨t, x, vs⟩ (by simp) i hi
  · rcases List.mem_append.1 hA with hA | hA
    · rw [hdr A (by simp [hA])]; exact h.own k hk A (by simp [hA]) j hj
    · rcases List.mem_cons.1 hA with rfl | hA
      · have e := hdr ⟨t, x, vs⟩ (by simp)
        simp only [List.length_set] at *
        rw [e]; exact h.own k hk ⟨t, x, vs⟩ (by simp) j hj
      · rw [hdr A (by simp [hA])]; exact h.own k hk A (by simp [hA]) j hj

theorem arrRun_inv {s0 : St} (h : ArrRun s0 s W H) : ArrInv s W H := by
  induction h with
  | start => exact ⟨by simp, by simp, .nil, by simp, by simp⟩
  | makeVector _ hr he hs ih =>
    obtain ⟨x', s'', g1, g2, g3, g4, g5, -⟩ := makeVector_ok hr he
    rw [hs] at g1; cases g1
    exact ih.add g3 (.inl rfl) g2 g4 g5
  | listToVector _ hr hu hl hf hs ih =>
    obtain ⟨x', s'', g1, g2, g3, g4, g5, -⟩ := listToVector_ok hr hu hl hf
    rw [hs] at g1; cases g1
    exact ih.add g3 (.inl rfl) g2 g4 g5
  | makeStruct _ hr ht hp hl hf hs ih =>
    obtain ⟨x', s'', g1, g2, g3, g4, g5, -⟩ := makeStruct_ok hr ht hp hl hf
    rw [hs] at g1; cases g1
    exact ih.add g3 (.inr rfl) g2 g4 g5
  | @vectorSet _ _ _ _ _ x _ _ vs _ _ _ hr hi he hs ih =>
    rw [vectorSet_eq _ (ih.arr ⟨.vector, x, vs⟩ (by simp)) hi, bind_eq_ok] at hs
    obtain ⟨s'', h1, h2⟩ := hs
    cases h2
    exact ih.store hr hi he h1
  | @structSet _ _ _ _ _ x _ _ vs _ _ _ hr hi he hs ih =>
    rw [structSet_eq _ (ih.arr ⟨.struct, x, vs⟩ (by simp)) hi, bind_eq_ok] at hs
    obtain ⟨s'', h1, h2⟩ := hs
    cases h2
    exact ih.store hr hi he h1
  | vectorRef _ hx hr hi hs ih =>
    obtain ⟨r', s'', g1, g2, g3, g4⟩ := vectorRef_val hr (ih.arr _ hx) hi
    rw [hs] at g1; cases g1
    exact ih.hold g3 g2 g4
  | structRef _ hx hr hi hs ih =>
    obtain ⟨r', s'', g1, g2, g3, g4⟩ := structRef_val hr (ih.arr _ hx) hi
    rw [hs] at g1; cases g1
    exact ih.hold g3 g2 g4
  | @other s s' W H P _ hf hp ih =>
    have hk : Keeps s s' := .of_frame hf (fun a _ hpa _ => by rw [(hp a hpa).2]; decide)
    have hdr : ∀ A ∈ W, s'.cell A.addr = s.cell A.addr := fun A hA => by
      have hA1 := ih.arr A hA
      refine hf.same _ hA1.valid.2 (fun hpa => ?_)
      have ht := hA1.tag
      rw [(hp _ hpa).1] at ht
      rcases ih.tag A hA with h | h <;> rw [h] at ht <;> cases ht
    refine ⟨fun A hA => ?_, ih.tag, ih.apart.imp_of_mem fun {A B} hA hB hab => ?_,
      fun k hk' => ?_, fun k hk' A hA j hj => ?_⟩
    · have hA1 := ih.arr A hA
      refine hA1.keep (hdr A hA) (fun _ => hf.valid) (fun j hj => ?_) hk
      have he := hA1.entry j A.vals[j] (by simp [hj])
      refine hf.same _ he.valid.2 (fun hpa => he.not_solid ?_)
      rw [(hp _ hpa).1]; decide
    · unfold Apart at *; rwa [hdr A hA, hdr B hB]
    · have hv := ih.held k hk'
      refine hv.keep hf.valid (fun hns => hf.same _ hv.valid.2 (fun hpa => hns ?_)) hk
      rw [(hp _ hpa).1]; decide
    · rw [hdr A hA]; exact ih.own k hk' A hA j hj

end

/-! ## C06 -/

/-- In every reachable state a vector read inside the bounds returns the element of the abstract array: the value last
stored at that index, or the initial one. -/
theorem C06_vector_ref {s0 s : St} {W : List Arr} {H : List (Int × Val)} {x : Int} {vs : List Val} {i : Nat} {v : Val} (h : ArrRun s0 s W H)
    (hx : ⟨.vector, x, vs⟩ ∈ W) (hi : vs[i]? = some v) (hr : Room s 1) :
    ∃ r s', vectorRef s x i = ok (r, s') ∧ ValAt s' r v ∧ Ext s s' := by
  obtain ⟨r, s', h1, h2, h3, -⟩ := vectorRef_val hr ((arrRun_inv h).arr _ hx) hi
  exact ⟨r, s', h1, h2, h3⟩

/-- A value that was read keeps its meaning whatever is stored afterwards. -/
theorem C06_read_stays {s0 s : St} {W : List Arr} {H : List (Int × Val)} {r : Int} {v : Val} (h : ArrRun s0 s W H)
    (hr : (r, v) ∈ H) : ValAt s r v := (arrRun_inv h).held _ hr

/-- A store inside the bounds succeeds and changes that element of that vector only: every other array of the program
keeps its values. -/
theorem C06_vector_set {s0 s : St} {V W : List Arr} {H : List (Int × Val)} {x e : Int} {vs : List Val} {i : Nat} {v : Val}
    (h : ArrRun s0 s (V ++ ⟨.vector, x, vs⟩ :: W) H) (hr : Room s 1) (hi : i < vs.length) (he : ValAt s e v) :
    ∃ s', vectorSet s x i e = ok (c_unspecified, s') ∧ IsArr .vector s' x (vs.set i v) ∧
      ∀ A ∈ V ++ W, IsArr A.tag s' A.addr A.vals := by
  have hx := (arrRun_inv h).arr ⟨.vector, x, vs⟩ (by simp)
  have hent := hx.entry i vs[i] (by simp [hi])
  obtain ⟨s', g1, -⟩ := setEntry_ok hr hent.valid hent.not_solid he
  have hs : vectorSet s x i e = ok (c_unspecified, s') := by rw [vectorSet_eq e hx hi, g1]; rfl
  have inv := arrRun_inv (.vectorSet h hr hi he hs)
  refine ⟨s', hs, inv.arr ⟨.vector, x, vs.set i v⟩ (by simp), fun A hA => inv.arr A ?_⟩
  rcases List.mem_append.1 hA with hA | hA <;> simp [hA]

/-- make-vector succeeds when there is room and gives a vector of that length filled with the value. -/
theorem C06_make_vector {s : St} {k : Nat} {e : Int} {v : Val} (hr : Room s (2 * k + 1)) (he : ValAt s e v) :
    ∃ x s', makeVector s k e = ok (x, s') ∧ IsArr .vector s' x (List.replicate k v) ∧ Ext s s' := by
  obtain ⟨x, s', h1, h2, h3, -⟩ := makeVector_ok hr he
  exact ⟨x, s', h1, h2, h3⟩

/-- vector-length is the number of elements, in every reachable state. -/
theorem C06_vector_length {s0 s : St} {W : List Arr} {H : List (Int × Val)} {x : Int} {vs : List Val} (h : ArrRun s0 s W H)
    (hx : ⟨.vector, x, vs⟩ ∈ W) (hr : Room s 1) :
    ∃ r s', vectorLength s x = ok (r, s') ∧ IsNum s' r vs.length ∧ Ext s s' := by
  have hx := (arrRun_inv h).arr _ hx
  refine ⟨_, _, ?_, hr.push_isNum _, push_ext ..⟩
  simp only [vectorLength, St.rd_ok hx.valid, ok_bind, assert_true hx.tag, hx.length, makeNumber_ok hr]

/-- A number at 116, a pair at 117, a character at 118. -/
def vecSample : St := sample [num 5, pair 116 c_nil, chr 65]
example : Room vecSample (2 * (3 : Nat) + 1) ∧ ValAt vecSample 116 (.num 5) ∧ ValAt vecSample 117 (.obj 117) ∧
    ValAt vecSample 118 (.chr 65) :=
  ⟨⟨by decide, by decide⟩, ⟨by decide, rfl, rfl⟩, ⟨rfl, by decide, by decide⟩, ⟨⟨by decide, rfl, rfl⟩, by decide⟩⟩
/-- Such runs exist: (make-vector 3 5), then a store of a pair and one of a character. -/
example : ∃ s x, ArrRun vecSample s [⟨.vector, x, [.num 5, .obj 117, .chr 65]⟩] [] := by
  obtain ⟨x, s1, h1, -, e1⟩ := C06_make_vector (s := vecSample) (k := 3) (e := 116) (v := .num 5)
    ⟨by decide, by decide⟩ ⟨by decide, rfl, rfl⟩
  have f1 : s1.free = 123 := by
    have : (do let (_, s) ← makeVector vecSample ((3 : Nat) : Int) 116; ok s.free) = ok 123 := by decide
    rw [h1] at this; simpa using this
  have r1 := ArrRun.makeVector (s0 := vecSample) (k := 3) (v := .num 5) .start ⟨by decide, by decide⟩ ⟨by decide, rfl, rfl⟩ h1
  have room1 : Room s1 1 := ⟨by rw [f1]; decide, by rw [f1, e1.arena]; decide⟩
  have he1 : ValAt s1 117 (.obj 117) := ValAt.ext (s := vecSample) ⟨rfl, by decide, by decide⟩ e1
  obtain ⟨s2, h2, -⟩ := C06_vector_set (V := []) (i := 1) r1 room1 (by decide) he1
  have r2 := ArrRun.vectorSet (V := []) r1 room1 (i := 1) (by decide) he1 h2
  have f2 : s2.free ≤ 124 ∧ s2.arena = 1000 ∧ 123 ≤ s2.free ∧ ValAt s2 118 (.chr 65) := by
    have hx := (arrRun_inv r1).arr _ (List.mem_singleton.2 rfl)
    have hent := hx.entry 1 (.num 5) rfl
    obtain ⟨s', g1, g2, g3, g4, g5⟩ := setEntry_ok room1 hent.valid hent.not_solid he1
    rw [vectorSet_eq (i := 1) _ hx (by simp)] at h2
    simp only [] at h2
    have hc1 : ValAt s1 118 (.chr 65) :=
      ValAt.ext (s := vecSample) ⟨⟨by decide, rfl, rfl⟩, by decide⟩ e1
    rw [g1] at h2; cases h2
    refine ⟨by omega, by rw [g2.arena, e1.arena]; rfl, by have := g2.le; omega, ?_⟩
    refine hc1.keep g2.valid (fun _ => g2.same _ hc1.valid.2 ?_) g4
    have hb : 119 ≤ x := by
      obtain ⟨x', s'', k1, -, -, k4, -⟩ := makeVector_ok (s := vecSample) (k := 3) (e := 116) (w := .num 5)
        ⟨by decide, by decide⟩ ⟨by decide, rfl, rfl⟩
      rw [h1] at k1; cases k1
      have : vecSample.free = 119 := by decide
      omega
    have hcd : (s1.cell x).cdr = x + 1 := by
      obtain ⟨x', s'', k1, -, -, -, k5, -⟩ := makeVector_ok (s := vecSample) (k := 3) (e := 116) (w := .num 5)
        ⟨by decide, by decide⟩ ⟨by decide, rfl, rfl⟩
      rw [h1] at k1; cases k1; exact k5
    simp only [hcd]; omega
  have room2 : Room s2 1 := ⟨by simp only [c_symbol_max]; omega, by rw [f2.2.1]; simp only [g_cells]; omega⟩
  obtain ⟨s3, h3, -⟩ := C06_vector_set (V := []) (i := 2) r2 room2 (by decide) f2.2.2.2
  exact ⟨s3, x, ArrRun.vectorSet (V := []) r2 room2 (i := 2) (by decide) f2.2.2.2 h3⟩

/-! ## C07 -/

/-- The full property: an index outside [0, length) stops with an assertion. -/
def IndexChecked : Prop :=
  ∀ (s : St) (x e i : Int) (vs : List Val) (v : Val), Room s 1 → IsArr .vector s x vs → ValAt s e v →
    (i < 0 ∨ vs.length ≤ i) → vectorRef s x i = abort ∧ vectorSet s x i e = abort

/-- A vector of one element as make-vector lays it out: header at 116, element at 117; then the number 7. -/
def oneVector : St := sample [{ tag := .vector, car := 1, cdr := 117 }, num 5, num 7]

theorem oneVector_isArr : IsArr .vector oneVector 116 [.num 5] := by
  refine ⟨by decide, rfl, rfl, fun i v hi => ?_⟩
  match i with
  | 0 => simp at hi; subst hi; exact ⟨by decide, rfl, rfl⟩
  | i + 1 => simp at hi

/-- A negative index passes the check: (vector-set! v -1 7) overwrites the header of the vector. -/
theorem C07_index_false : ¬ IndexChecked := by
  intro h
  have := (h oneVector 116 118 (-1) [.num 5] (.num 7) ⟨by decide, by decide⟩ oneVector_isArr ⟨by decide, rfl, rfl⟩
    (by decide)).2
  have h2 : (vectorSet oneVector 116 (-1) 118 >>= fun (_, s) => s.tag 116) = ok .number := by decide
  rw [this] at h2; cases h2

/-- Missing from C07: negative indexes, see `C07_index_false`.  An index of the length or more stops with an assertion,
for vectors and structs, reads and stores, whatever is stored. -/
theorem C07_index_partial {s : St} {x i e : Int} {vs : List Val} (hi : vs.length ≤ i) :
    (IsArr .vector s x vs → vectorRef s x i = abort ∧ vectorSet s x i e = abort) ∧
    (IsArr .struct s x vs → structRef s x i = abort ∧ structSet s x i e = abort) := by
  constructor
  · intro h
    simp only [vectorRef, vectorSet, St.rd_ok h.valid, ok_bind, assert_true h.tag, h.length,
      assert_false (show ¬ i < vs.length by omega), abort_bind, and_self]
  · intro h
    simp only [structRef, structSet, St.rd_ok h.valid, ok_bind, assert_true h.tag, h.length,
      assert_false (show ¬ i < vs.length by omega), abort_bind, and_self]

/-- Something that is not a vector is rejected. -/
theorem C07_not_a_vector {s : St} {x i e : Int} (hv : s.Valid x) (ht : (s.cell x).tag ≠ .vector) :
    vectorRef s x i = abort ∧ vectorSet s x i e = abort ∧ vectorLength s x = abort := by
  simp only [vectorRef, vectorSet, vectorLength, St.rd_ok hv, ok_bind, assert_false ht, abort_bind, and_self]

example : IsArr .vector oneVector 116 [.num 5] ∧ (([Val.num 5].length : Nat) : Int) ≤ 1 := ⟨oneVector_isArr, by decide⟩

/-! ## C08 -/

/-- list->vector gives a vector with the elements of the list, of its length. -/
theorem C08_list_to_vector {s : St} {fuel : Nat} {x : Int} {vs : List Val} (hr : Room s (3 * vs.length + 1))
    (hu : Fixed s) (h : ListOf s (ValAt s) x vs) (hf : vs.length < fuel) :
    ∃ v s', listToVector s fuel x = ok (v, s') ∧ IsArr .vector s' v vs ∧ Ext s s' := by
  have hun : ValAt s c_unspecified (.obj c_unspecified) := by
    refine ⟨rfl, hr.valid (by decide) (by decide), ?_⟩
    rw [hu _ (by decide) (by decide)]; decide
  obtain ⟨v, s', h1, h2, h3, -⟩ := listToVector_ok hr hun h hf
  exact ⟨v, s', h1, h2, h3⟩

/-- vector->list gives a list of the elements of the vector. -/
theorem C08_vector_to_list {s : St} {v : Int} {vs : List Val} (hr : Room s vs.length) (h : IsArr .vector s v vs) :
    ∃ r s', vectorToList s v = ok (r, s') ∧ ListOf s' (ValAt s') r vs ∧ Ext s s' := by
  obtain ⟨r, s', h1, h2, h3, -⟩ := vectorToList_ok hr h
  exact ⟨r, s', h1, h2, h3⟩

/-- The round trip: the same values in the same order. -/
theorem C08_round_trip_partial {s : St} {fuel : Nat} {x : Int} {vs : List Val} (hr : Room s (4 * vs.length + 1))
    (hu : Fixed s) (h : ListOf s (ValAt s) x vs) (hf : vs.length < fuel) :
    ∃ v s1 r s2, listToVector s fuel x = ok (v, s1) ∧ vectorToList s1 v = ok (r, s2) ∧
      ListOf s2 (ValAt s2) r vs ∧ IsArr .vector s2 v vs ∧ Ext s s2 := by
  have hun : ValAt s c_unspecified (.obj c_unspecified) := by
    refine ⟨rfl, hr.valid (by decide) (by decide), ?_⟩
    rw [hu _ (by decide) (by decide)]; decide
  obtain ⟨v, s1, h1, h2, h3, -, -, h6⟩ := listToVector_ok (hr.mono (by omega)) hun h hf
  obtain ⟨r, s2, g1, g2, g3, -⟩ := vectorToList_ok (hr.step h3 (by omega)) h2
  exact ⟨v, s1, r, s2, h1, g1, g2, h2.ext g3, h3.trans g3⟩

/-- The other half of C08: a later store into the vector does not change the list made from it. -/
def ListIndependent : Prop :=
  ∀ (s s1 s2 : St) (v r e u : Int) (vs : List Val) (i : Nat) (w : Val), IsArr .vector s v vs → Room s vs.length →
    vectorToList s v = ok (r, s1) → Room s1 1 → i < vs.length → ValAt s1 e w → vectorSet s1 v i e = ok (u, s2) →
    ListOf s2 (ValAt s2) r vs

/-- False for numbers and characters: the list holds the addresses of the element cells of the vector, so a store into
the vector changes the list. -/
theorem C08_shared_false : ¬ ListIndependent := by
  intro h
  obtain ⟨r, s1, h1, h2, h3, h4⟩ := vectorToList_ok (s := oneVector) (v := 116) (ws := [.num 5])
    ⟨by decide, by decide⟩ oneVector_isArr
  have hr1 : Room s1 1 := Room.step (s := oneVector) (k := 2) ⟨by decide, by decide⟩ h3 (by rw [h4]; decide)
  have he : ValAt s1 118 (.num 7) := ValAt.ext (s := oneVector) ⟨by decide, rfl, rfl⟩ h3
  have harr := oneVector_isArr.ext h3
  have hent := harr.entry 0 (.num 5) (by decide)
  obtain ⟨s2, g1, -⟩ := setEntry_ok hr1 hent.valid hent.not_solid he
  have hs : vectorSet s1 116 (0 : Nat) 118 = ok (c_unspecified, s2) := by
    rw [vectorSet_eq 118 harr (by decide), g1]; rfl
  have hl := h oneVector s1 s2 116 r 118 c_unspecified [.num 5] 0 (.num 7) oneVector_isArr ⟨by decide, by decide⟩ h1 hr1
    (by decide) he hs
  have hd : (do let (r, s1) ← vectorToList oneVector 116
                let (_, s2) ← vectorSet s1 116 0 118
                let a ← s2.car r
                s2.cdr a) = ok 7 := by decide
  rw [h1] at hd
  simp only [ok_bind] at hd
  rw [show ((0 : Nat) : Int) = 0 from rfl] at hs
  rw [hs] at hd
  simp only [ok_bind] at hd
  cases hl with
  | cons hne hv ht hx _ =>
    rw [St.car_ok hv, ok_bind, St.cdr_ok (IsNum.valid hx), IsNum.value hx] at hd
    exact absurd hd (by decide)

/-- The list (5 (5) A) at 121. -/
def mixedList : St := sample [num 5, pair 116 c_nil, chr 65, pair 118 c_nil, pair 117 119, pair 116 120]
example : Fixed mixedList ∧ Room mixedList 20 ∧
    ListOf mixedList (ValAt mixedList) 121 [.num 5, .obj 117, .chr 65] := by
  refine ⟨fun a h1 h2 => ?_, ⟨by decide, by decide⟩,
    .cons (by decide) (by decide) rfl ⟨by decide, rfl, rfl⟩
      (.cons (by decide) (by decide) rfl ⟨rfl, by decide, by decide⟩
        (.cons (by decide) (by decide) rfl ⟨⟨by decide, rfl, rfl⟩, by decide⟩ .nil))⟩
  simp only [c_symbol_max] at h2
  simp only [mixedList, sample, sampleN, c_symbol_max, if_pos h2, sampleFixed]

/-! ## C09 -/

/-- In every reachable state a struct read inside the bounds returns the value last stored in that field. -/
theorem C09_struct_ref {s0 s : St} {W : List Arr} {H : List (Int × Val)} {x : Int} {vs : List Val} {i : Nat} {v : Val} (h : ArrRun s0 s W H)
    (hx : ⟨.struct, x, vs⟩ ∈ W) (hi : vs[i]? = some v) (hr : Room s 1) :
    ∃ r s', structRef s x i = ok (r, s') ∧ ValAt s' r v ∧ Ext s s' := by
  obtain ⟨r, s', h1, h2, h3, -⟩ := structRef_val hr ((arrRun_inv h).arr _ hx) hi
  exact ⟨r, s', h1, h2, h3⟩

/-- A store changes the named field of the named struct only. -/
theorem C09_struct_set {s0 s : St} {V W : List Arr} {H : List (Int × Val)} {x e : Int} {vs : List Val} {i : Nat} {v : Val}
    (h : ArrRun s0 s (V ++ ⟨.struct, x, vs⟩ :: W) H) (hr : Room s 1) (hi : i < vs.length) (he : ValAt s e v) :
    ∃ s', structSet s x i e = ok (c_unspecified, s') ∧ IsArr .struct s' x (vs.set i v) ∧
      ∀ A ∈ V ++ W, IsArr A.tag s' A.addr A.vals := by
  have hx := (arrRun_inv h).arr ⟨.struct, x, vs⟩ (by simp)
  have hent := hx.entry i vs[i] (by simp [hi])
  obtain ⟨s', g1, -⟩ := setEntry_ok hr hent.valid hent.not_solid he
  have hs : structSet s x i e = ok (c_unspecified, s') := by rw [structSet_eq e hx hi, g1]; rfl
  have inv := arrRun_inv (.structSet h hr hi he hs)
  refine ⟨s', hs, inv.arr ⟨.struct, x, vs.set i v⟩ (by simp), fun A hA => inv.arr A ?_⟩
  rcases List.mem_append.1 hA with hA | hA <;> simp [hA]

/-- make-struct gives a struct with the type, the printer and the given fields. -/
theorem C09_make_struct {s : St} {fuel : Nat} {ty fields pr : Int} {tv pv : Val} {vs : List Val}
    (hr : Room s (2 * vs.length + 5)) (ht : ValAt s ty tv) (hp : ValAt s pr pv) (hl : ListOf s (ValAt s) fields vs)
    (hf : vs.length < fuel) :
    ∃ x s', makeStruct s fuel ty fields pr = ok (x, s') ∧ IsArr .struct s' x (tv :: pv :: vs) ∧ Ext s s' := by
  obtain ⟨x, s', h1, h2, h3, -⟩ := makeStruct_ok hr ht hp hl hf
  exact ⟨x, s', h1, h2, h3⟩

/-- struct-length counts type, printer and fields. -/
theorem C09_struct_length {s0 s : St} {W : List Arr} {H : List (Int × Val)} {x : Int} {vs : List Val} (h : ArrRun s0 s W H)
    (hx : ⟨.struct, x, vs⟩ ∈ W) (hr : Room s 1) :
    ∃ r s', structLength s x = ok (r, s') ∧ IsNum s' r vs.length ∧ Ext s s' := by
  have hx := (arrRun_inv h).arr _ hx
  refine ⟨_, _, ?_, hr.push_isNum _, push_ext ..⟩
  simp only [structLength, St.rd_ok hx.valid, ok_bind, assert_true hx.tag, hx.length, makeNumber_ok hr]

example : ∃ s x, ArrRun mixedList s [⟨.struct, x, [.num 5, .chr 65, .num 5, .obj 117, .chr 65]⟩] [] := by
  obtain ⟨x, s1, h1, -, e1⟩ := C09_make_struct (s := mixedList) (fuel := 10) (ty := 116) (fields := 121) (pr := 118)
    (tv := .num 5) (pv := .chr 65) (vs := [.num 5, .obj 117, .chr 65])
    ⟨by decide, by decide⟩ ⟨by decide, rfl, rfl⟩ ⟨⟨by decide, rfl, rfl⟩, by decide⟩
    (.cons (by decide) (by decide) rfl ⟨by decide, rfl, rfl⟩
      (.cons (by decide) (by decide) rfl ⟨rfl, by decide, by decide⟩
        (.cons (by decide) (by decide) rfl ⟨⟨by decide, rfl, rfl⟩, by decide⟩ .nil))) (by decide)
  exact ⟨s1, x, .makeStruct .start ⟨by decide, by decide⟩ ⟨by decide, rfl, rfl⟩ ⟨⟨by decide, rfl, rfl⟩, by decide⟩
    (.cons (by decide) (by decide) rfl ⟨by decide, rfl, rfl⟩
      (.cons (by decide) (by decide) rfl ⟨rfl, by decide, by decide⟩
        (.cons (by decide) (by decide) rfl ⟨⟨by decide, rfl, rfl⟩, by decide⟩ .nil))) (by decide) h1⟩

end Mes.Props
