import Verif.Proof.LibraryMore
import Verif.Props.Library
/-
Property C54, continued: `fold` and `fold-right` with three lists, `filter-map` with two
(/repo/mes/module/srfi/srfi-1.mes:43-87), `map` with three and four (/repo/mes/module/mes/base.mes:122-135).
-/
namespace Mes.Props
open Res Spec
open Lib (Names nm table)

variable [Names] {mes : Bool} {d : Nat} {σ : Store} {F : Nat → Prop} {K : Calls} {S : Type} {P : S → List Value → Value → S → Prop}
  {R : S → (Nat → Prop) → Store → Prop} {s s' : S} {p a b w : Value} {ls ms ns ys : List Value}

section
omit [Names]
variable {g : List Value → Value}

theorem folds3_pure {u u' : Unit} :
    Folds3 (Pure g) u a ls ms ns w u' ↔ w = (ls.zip (ms.zip ns)).foldl (fun r x => g [x.1, x.2.1, x.2.2, r]) a := by
  refine ⟨fun h => ?_, fun h => ?_⟩
  · induction h with
    | done h => rcases h with rfl | rfl | rfl <;> simp
    | cons h _ ih => cases (show _ = _ from h); exact ih
  · subst h
    induction ls generalizing a ms ns with
    | nil => exact .done (.inl rfl)
    | cons x xs ih => cases ms with
      | nil => exact .done (.inr (.inl rfl))
      | cons y ys => cases ns with
        | nil => exact .done (.inr (.inr rfl))
        | cons z zs => exact .cons (s₁ := ()) rfl ih

theorem foldsRight3_pure {u u' : Unit} :
    FoldsRight3 (Pure g) u a ls ms ns w u' ↔ w = (ls.zip (ms.zip ns)).foldr (fun x r => g [x.1, x.2.1, x.2.2, r]) a := by
  refine ⟨fun h => ?_, fun h => ?_⟩
  · induction h with
    | done h => rcases h with rfl | rfl | rfl <;> simp
    | cons _ h ih => rw [List.zip_cons_cons, List.zip_cons_cons, List.foldr_cons, ← ih]; exact h
  · subst h
    induction ls generalizing ms ns with
    | nil => exact .done (.inl rfl)
    | cons x xs ih => cases ms with
      | nil => exact .done (.inr (.inl rfl))
      | cons y ys => cases ns with
        | nil => exact .done (.inr (.inr rfl))
        | cons z zs => exact .cons (s₁ := ()) ih rfl

theorem filterMaps2_pure {u u' : Unit} : FilterMaps2 (Pure g) u ls ms ys u' ↔ ys = (List.zipWith (fun x y => g [x, y]) ls ms).filter truth := by
  refine ⟨fun h => ?_, fun h => ?_⟩
  · induction h with
    | done h => rcases h with rfl | rfl <;> simp
    | keep h hy _ ih => cases (show _ = _ from h); rw [List.zipWith_cons_cons, List.filter_cons_of_pos (truth_iff.2 hy), ih]
    | drop h _ ih => rw [List.zipWith_cons_cons, List.filter_cons_of_neg (by rw [truth_iff'.2 (show _ = _ from h).symm]; simp), ih]
  · subst h
    induction ls generalizing ms with
    | nil => exact .done (.inl rfl)
    | cons x xs ih => cases ms with
      | nil => simp only [List.zipWith_nil_right, List.filter_nil]; exact .done (.inr rfl)
      | cons y ys =>
        rw [List.zipWith_cons_cons, List.filter_cons]
        split
        · next h => exact .keep (s₁ := ()) rfl (truth_iff.1 h) ih
        · next h => exact .drop (s₁ := ()) (truth_iff'.1 (by simpa using h)).symm ih

theorem maps3_pure {u u' : Unit} : Maps3 (Pure g) u ls ms ns ys u' ↔ ys = (ls.zip (ms.zip ns)).map fun x => g [x.1, x.2.1, x.2.2] := by
  refine ⟨fun h => ?_, fun h => ?_⟩
  · induction h with
    | done h => rcases h with rfl | rfl | rfl <;> simp
    | cons h _ ih => cases (show _ = _ from h); rw [ih]; rfl
  · subst h
    induction ls generalizing ms ns with
    | nil => exact .done (.inl rfl)
    | cons x xs ih => cases ms with
      | nil => exact .done (.inr (.inl rfl))
      | cons y ys => cases ns with
        | nil => exact .done (.inr (.inr rfl))
        | cons z zs => exact .cons (s₁ := ()) rfl ih

theorem maps4_pure {os : List Value} {u u' : Unit} :
    Maps4 (Pure g) u ls ms ns os ys u' ↔ ys = (ls.zip (ms.zip (ns.zip os))).map fun x => g [x.1, x.2.1, x.2.2.1, x.2.2.2] := by
  refine ⟨fun h => ?_, fun h => ?_⟩
  · induction h with
    | done h => rcases h with rfl | rfl | rfl | rfl <;> simp
    | cons h _ ih => cases (show _ = _ from h); rw [ih]; rfl
  · subst h
    induction ls generalizing ms ns os with
    | nil => exact .done (.inl rfl)
    | cons x xs ih => cases ms with
      | nil => exact .done (.inr (.inl rfl))
      | cons y ys => cases ns with
        | nil => exact .done (.inr (.inr (.inl rfl)))
        | cons z zs => cases os with
          | nil => exact .done (.inr (.inr (.inr rfl)))
          | cons w ws => exact .cons (s₁ := ()) rfl ih

end

/-- `(map f lst1 lst2 lst3)`, until one of the lists ends. -/
theorem C54_map3 (hK : Implements K.builtin mes Computes) (hB : Behaves mes Computes d p P R) (hP : Maps3 P s ls ms ns ys s') (hL : Loaded F σ)
    (hR : R s F σ) :
    Performs K mes (d + 5 * ls.length + 30) F σ Lib.map [p, listVal ls, listVal ms, listVal ns] (listVal ys) (R s') :=
  performs hK (Lib.map_call3 hB hP _ _ _ (Nat.le_refl _) hR hL.scope)

/-- C54 for `map` with four lists: "the length of the result list is the same as the length of the shortest argument list" (R7RS). -/
def C54_map4_full : Prop :=
  ∀ [Names] (mes : Bool) (F : Nat → Prop) (σ : Store) (d : Nat) (p : Value) (P : Unit → List Value → Value → Unit → Prop)
    (R : Unit → (Nat → Prop) → Store → Prop) (ls ms ns os ys : List Value), Loaded F σ → Behaves mes Computes d p P R → R () F σ →
    Maps4 P () ls ms ns os ys () → ∃ D σ', Call mes Computes D σ Lib.map [p, listVal ls, listVal ms, listVal ns, listVal os] (listVal ys) σ'

/-- `(map f lst1 lst2 lst3 lst4)`, if the fourth list is not the shortest. -/
theorem C54_map4_partial {os : List Value} (hK : Implements K.builtin mes Computes) (hB : Behaves mes Computes d p P R)
    (hP : Maps4 P s ls ms ns os ys s') (hl : ls.length ≤ os.length ∨ ms.length ≤ os.length ∨ ns.length ≤ os.length) (hL : Loaded F σ) (hR : R s F σ) :
    Performs K mes (d + 6 * ls.length + 30) F σ Lib.map [p, listVal ls, listVal ms, listVal ns, listVal os] (listVal ys) (R s') :=
  performs hK (Lib.map_call4 hB hP _ _ _ hl (Nat.le_refl _) hR hL.scope)

omit [Names] in
/-- `(map list '(1) '(2) '(3) '())` has no value: it takes the `car` of the empty list, because the text looks for the end of three
lists only (/repo/mes/module/mes/base.mes:123-125, 134). -/
theorem C54_map4_false : ¬ C54_map4_full := by
  intro h
  obtain ⟨D, σ', h⟩ := h true (fun _ => False) (libStore []) 0 (.prim (-1) 143) ofThree (fun _ F σ => ∀ l, F l → l < σ.vals.length)
    [.int 1] [.int 2] [.int 3] [] [] libStore_loaded' prim_behaves (fun _ h => h.elim) (.done (.inr (.inr (.inr rfl))))
  exact Lib.map_stuck (libStore_loaded' (vs := [])).scope h

/-- `(fold proc init lst1 lst2 lst3 more …)`: further lists are ignored, the call of `error` in the text
(/repo/mes/module/srfi/srfi-1.mes:70) is never reached. -/
theorem C54_fold3 {rest : List Value} (hK : Implements K.builtin mes Computes) (hB : Behaves mes Computes d p P R) (hP : Folds3 P s a ls ms ns w s')
    (hL : Loaded F σ) (hR : R s F σ) :
    Performs K mes (d + 11) F σ Lib.fold (p :: a :: listVal ls :: listVal ms :: listVal ns :: rest) w (R s') :=
  performs hK (Lib.fold_call3 (more' := rest) hB hP hR hL.scope (Nat.le_refl _))

/-- `(fold-right proc init lst1 lst2 lst3 more …)`, the same. -/
theorem C54_fold_right3 {rest : List Value} (hK : Implements K.builtin mes Computes) (hB : Behaves mes Computes d p P R)
    (hP : FoldsRight3 P s a ls ms ns w s') (hL : Loaded F σ) (hR : R s F σ) :
    Performs K mes (d + 5 * ls.length + 11) F σ Lib.foldRight (p :: a :: listVal ls :: listVal ms :: listVal ns :: rest) w (R s') :=
  performs hK (Lib.foldRight_call3 (more' := rest) hB hP hR hL.scope (Nat.le_refl _))

/-- C54 for `filter-map` with two lists: "the iteration stops when the shortest list runs out" (SRFI-1). -/
def C54_filter_map2_full : Prop :=
  ∀ [Names] (mes : Bool) (F : Nat → Prop) (σ : Store) (d : Nat) (p : Value) (P : Unit → List Value → Value → Unit → Prop)
    (R : Unit → (Nat → Prop) → Store → Prop) (ls ms ys : List Value), Loaded F σ → Behaves mes Computes d p P R → R () F σ →
    FilterMaps2 P () ls ms ys () → ∃ D σ', Call mes Computes D σ Lib.filterMap [p, listVal ls, listVal ms] (listVal ys) σ'

/-- `(filter-map f lst1 lst2)`, if the second list is not shorter than the first. -/
theorem C54_filter_map2_partial (hK : Implements K.builtin mes Computes) (hB : Behaves mes Computes d p P R) (hP : FilterMaps2 P s ls ms ys s')
    (hl : ls.length ≤ ms.length) (hL : Loaded F σ) (hR : R s F σ) :
    Performs K mes (d + 3 * ls.length + 15) F σ Lib.filterMap [p, listVal ls, listVal ms] (listVal ys) (R s') :=
  performs hK (Lib.filterMap_call2 hB hP _ _ _ hl (Nat.le_refl _) hR hL.scope)

omit [Names] in
/-- `(filter-map f '(1) '())` has no value: it takes the `car` of the empty list, because the text looks only for the end of
the first list (/repo/mes/module/srfi/srfi-1.mes:44, 50). -/
theorem C54_filter_map2_false : ¬ C54_filter_map2_full := by
  intro h
  obtain ⟨D, σ', h⟩ := h true (fun _ => False) (libStore []) 0 (.prim 2 171) consing (fun _ F σ => ∀ l, F l → l < σ.vals.length)
    [.int 1] [] [] libStore_loaded' prim_behaves (fun _ h => h.elim) (.done (.inr rfl))
  exact Lib.filterMap_stuck (libStore_loaded' (vs := [])).scope h

/-- `(fold list 0 '(1 2) '(3 4) '(5))`, `(fold-right list 0 …)`, `(map list …)` and `(filter-map cons '(1) '(3 4))`. -/
example : (Behaves mes Computes 0 (.prim (-1) 143) ofThree fun (_ : Unit) F σ => ∀ l, F l → l < σ.vals.length) ∧
    (Behaves mes Computes 0 (.prim 2 171) consing fun (_ : Unit) F σ => ∀ l, F l → l < σ.vals.length) ∧
    Folds3 ofThree () (.int 0) [.int 1, .int 2] [.int 3, .int 4] [.int 5] (listVal [.int 1, .int 3, .int 5, .int 0]) () ∧
    FoldsRight3 ofThree () (.int 0) [.int 1] [.int 3, .int 4] [.int 5] (listVal [.int 1, .int 3, .int 5, .int 0]) () ∧
    Maps3 ofThree () [.int 1, .int 2] [.int 3, .int 4] [.int 5] [listVal [.int 1, .int 3, .int 5]] () ∧
    Maps4 ofThree () [.int 1] [.int 3, .int 4] [.int 5] [.int 6] [listVal [.int 1, .int 3, .int 5, .int 6]] () ∧
    FilterMaps2 consing () [.int 1] [.int 3, .int 4] [.pair (.int 1) (.int 3)] () :=
  ⟨prim_behaves, prim_behaves, .cons (s₁ := ()) .list (.done (.inr (.inr rfl))), .cons (s₁ := ()) (.done (.inl rfl)) .list,
    .cons (s₁ := ()) .list (.done (.inr (.inr rfl))), .cons (s₁ := ()) .list (.done (.inl rfl)),
    .keep (s₁ := ()) .cons (by simp [True']) (.done (.inl rfl))⟩

end Mes.Props
