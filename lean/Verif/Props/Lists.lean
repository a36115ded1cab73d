import Verif.Proof.Lists
import Verif.Spec.Sample
import Verif.Props.Math
/-
Property C10: length, append2, append-reverse and reverse! of /repo/src/core.c.

`IsList s x xs`: the proper list at `x` has the elements `xs`; `Seg s r xs y`: the pairs starting at `r` have the cars
`xs` and the last cdr is `y` (Spec/Heap.lean).
-/
namespace Mes.Props
open Res Spec

variable {s : St} {fuel : Nat} {x y : Int} {xs : List Int}

/-- (length l) is the number of elements. -/
theorem C10_length (hr : Room s 1) (h : IsList s x xs) (hf : xs.length < fuel) :
    ∃ r s', lengthP s fuel x = ok (r, s') ∧ IsNum s' r xs.length ∧ Ext s s' := by
  refine ⟨_, _, ?_, hr.push_isNum _, push_ext ..⟩
  simp only [lengthP, length_ok h hf, ok_bind, makeNumber_ok hr]

/-- length of an improper list is -1. -/
theorem C10_length_improper (hr : Room s 1) (h : IsImproper s x xs) (hf : xs.length < fuel) :
    ∃ r s', lengthP s fuel x = ok (r, s') ∧ IsNum s' r (-1) ∧ Ext s s' := by
  refine ⟨_, _, ?_, hr.push_isNum _, push_ext ..⟩
  simp only [lengthP, length__, lengthLoop_improper h hf, ok_bind, makeNumber_ok hr]

/-- (append-reverse l y): the elements in reverse order in front of y; no existing cell changes. -/
theorem C10_append_reverse (hr : Room s xs.length) (h : IsList s x xs) (hf : xs.length < fuel) :
    ∃ r s', appendReverse s fuel x y = ok (r, s') ∧ Seg s' r xs.reverse y ∧ Ext s s' := by
  obtain ⟨as, hc, rfl⟩ := h.chain
  simp only [List.length_map] at hr hf
  cases hc with
  | nil => exact ⟨y, s, by simp [appendReverse], .nil _, Frame.refl ..⟩
  | cons hne hv ht hc =>
    obtain ⟨r', s', bs, h1, h2, h3, h4, -⟩ := revOnto_ok (r := y) (.cons hne hv ht hc) hf hr
    refine ⟨r', s', ?_, h4 ▸ h3.seg, h2⟩
    simp only [appendReverse, if_neg hne, St.rd_ok hv, ok_bind, ht, ne_eq, not_true_eq_false, if_false, h1]

/-- (append2 l y): the elements in front of y; no existing cell changes, so l is still what it was. -/
theorem C10_append2 (hr : Room s xs.length) (h : IsList s x xs) (hf : xs.length < fuel) :
    ∃ r s', append2 s fuel x y = ok (r, s') ∧ Seg s' r xs y ∧ Ext s s' := by
  obtain ⟨as, hc, rfl⟩ := h.chain
  simp only [List.length_map] at hr hf
  cases hc with
  | nil => exact ⟨y, s, by simp [append2], .nil _, Frame.refl ..⟩
  | @cons _ _ as' hne hv ht hc =>
    obtain ⟨r', s', bs, h1, h2, h3, h4, h5, h6⟩ := revOnto_ok (r := c_nil) (.cons hne hv ht hc) hf hr
    have hlen : bs.length = (x :: as').length := by
      have := congrArg List.length h4; simpa using this
    obtain ⟨r2, s2, g1, g2, g3, g4, -⟩ := reverseXLoop_ok (r := y) h3 h3.nodup (hlen ▸ hf)
    refine ⟨r2, s2, ?_, ?_, h2.trans' g2 (fun a ha hb => ?_)⟩
    · cases h3 with
      | nil => simp at hlen
      | cons hne2 hv2 ht2 _ =>
        simp only [append2, if_neg hne, St.rd_ok hv, ok_bind, ht, ne_eq, not_true_eq_false, if_false, h1, reverseX,
          if_pos hne2, St.rd_ok hv2, ht2, g1]
    · have e : cars s2 bs.reverse = cars s (x :: as') := by
        have e1 : cars s2 bs.reverse = cars s' bs.reverse := List.map_congr_left fun a _ => (g4 a).1
        have e2 : cars s' bs.reverse = (cars s' bs).reverse := by simp [cars]
        rw [e1, e2, h4, List.reverse_reverse]
      exact e ▸ g3.seg
    · have := h5 a hb; omega

/-- In particular appending two proper lists gives the concatenation, and both arguments are unchanged. -/
theorem C10_append2_lists {ys : List Int} (hr : Room s xs.length) (h : IsList s x xs) (h' : IsList s y ys)
    (hf : xs.length < fuel) :
    ∃ r s', append2 s fuel x y = ok (r, s') ∧ IsList s' r (xs ++ ys) ∧ IsList s' x xs ∧ IsList s' y ys := by
  obtain ⟨r, s', h1, h2, h3⟩ := C10_append2 (y := y) hr h hf
  exact ⟨r, s', h1, Chain.seg_append h2 (h'.ext h3), h.ext h3, h'.ext h3⟩

/-- append2 of something that is neither a list nor empty is an error. -/
theorem C10_append2_error (hv : s.Valid x) (hne : x ≠ c_nil) (ht : (s.cell x).tag ≠ .pair) :
    append2 s fuel x y = err .notAPair := by
  simp [append2, hne, hv, ht]

/-- (reverse! l y): the pairs of l are re-linked in reverse order in front of y; only these pairs change. -/
theorem C10_reverse_x (h : IsList s x xs) (hf : xs.length < fuel) :
    ∃ r s', reverseX s fuel x y = ok (r, s') ∧ Seg s' r xs.reverse y ∧ Frame (PairOf s x) s s' ∧ s'.free = s.free := by
  obtain ⟨as, hc, rfl⟩ := h.chain
  simp only [List.length_map] at hf
  cases hc with
  | nil => exact ⟨y, s, by simp [reverseX], .nil _, Frame.refl .., rfl⟩
  | @cons _ _ as' hne hv ht hc =>
    have hc' := Chain.cons hne hv ht hc
    obtain ⟨r2, s2, g1, g2, g3, g4, g5⟩ := reverseXLoop_ok (r := y) hc' hc'.nodup hf
    refine ⟨r2, s2, ?_, ?_, g2.mono (fun a _ ha => hc'.pairOf a ha), g5⟩
    · simp only [reverseX, if_pos hne, St.rd_ok hv, ok_bind, ht, ne_eq, not_true_eq_false, if_false, g1]
    · have e : cars s2 (x :: as').reverse = (cars s (x :: as')).reverse := by
        have e1 : cars s2 (x :: as').reverse = cars s (x :: as').reverse := List.map_congr_left fun a _ => (g4 a).1
        rw [e1]; simp [cars]
      exact e ▸ g3.seg

/-- The list (40 -7 2) of `twoLists` meets the hypotheses. -/
example : Room twoLists 3 ∧ IsList twoLists 121 [116, 117, 118] :=
  ⟨⟨by decide, by decide⟩, .cons (by decide) (by decide) rfl rfl
    (.cons (by decide) (by decide) rfl rfl (.cons (by decide) (by decide) rfl rfl .nil))⟩
example : IsImproper (sample [num 1, pair 116 116]) 117 [116] :=
  .cons (by decide) (by decide) rfl (.nil (by decide) (by decide) (by decide))

end Mes.Props
