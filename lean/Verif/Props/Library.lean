import Verif.Proof.LibraryLists
import Verif.Proof.Determinism
import Verif.Props.Apply
/-
Property C54: the list library (/repo/mes/module/mes/base.mes, scm.mes, /repo/mes/module/srfi/srfi-1.mes, srfi-1.scm).

The theorems are about the programs of the library.  `Performs` says what a call does in the semantics of the core language, and that
the machine of /repo/src/eval-apply.c does the same.  The procedure argument is any procedure that behaves as `P` says.
-/
namespace Mes.Props
open Res Spec
open Lib (Names nm table)

variable [Names] {mes : Bool} {d : Nat} {σ : Store} {F : Nat → Prop} {K : Calls} {S : Type} {P : S → List Value → Value → S → Prop}
  {R : S → (Nat → Prop) → Store → Prop} {s s' : S} {p a b w : Value} {ls ms ys : List Value}

/-- The library is loaded, and nothing changes its variables: they are not in `F`. -/
structure Loaded [Names] (F : Nat → Prop) (σ : Store) : Prop where
  below : ∀ l, F l → l < σ.vals.length
  defined : ∀ x w, table.lookup x = some w → ∃ l, σ.globals (nm x) = some l ∧ σ.vals[l]? = some w ∧ ¬ F l

/-- The call of `f` with the arguments `vs` has the value `w`.  Of the locations that existed before it changes only those in `F`, and
afterwards the store satisfies `T`.  The machine computes this with a stack of `D` frames. -/
def Performs (K : Calls) (mes : Bool) (D : Nat) (F : Nat → Prop) (σ : Store) (f : Value) (vs : List Value) (w : Value)
    (T : (Nat → Prop) → Store → Prop) : Prop :=
  ∃ F' σ', Call mes Computes D σ f vs w σ' ∧ Step F σ F' σ' ∧ T F' σ' ∧
    ∃ k, ∀ W s, Ready s k D → AtCall s W mes σ f vs → Evaluates K s (Result s mes w σ')

theorem Loaded.scope (h : Loaded F σ) : Lib.Scope F σ (fun _ => none) table := by
  have : ∀ x w, table.lookup x = some w → Lib.Has F σ (fun _ => none) (nm x) w := fun x w hx => by
    obtain ⟨l, h1, h2⟩ := h.defined x w hx; exact ⟨l, by simpa [Store.find] using h1, h2⟩
  exact ⟨h.below, this, this⟩

omit [Names] in
theorem performs {D : Nat} {f : Value} {vs : List Value} {T : (Nat → Prop) → Store → Prop} (hK : Implements K.builtin mes Computes)
    (h : Lib.Ca mes D F σ f vs fun w' F' σ' => w' = w ∧ T F' σ') : Performs K mes D F σ f vs w T := by
  obtain ⟨w', F', σ', h1, h2, rfl, h3⟩ := h
  refine ⟨F', σ', h1, h2, h3, ?_⟩
  obtain ⟨k, hk⟩ := simCall (mv := False) hK (fun q => q.elim) h1
  refine ⟨k, fun W s hr h => ?_⟩
  obtain ⟨W', s', x, h1, h2, -, h4, -, h6⟩ := hk W s hr h.world h.pair h.proc h.args 0 none none
  exact evaluates_of h.called rfl h1 h2 ⟨h2, W', h4, h6⟩

omit [Names] in
theorem performs' {D : Nat} {f : Value} {vs : List Value} (hK : Implements K.builtin mes Computes)
    (h : Lib.Ca mes D F σ f vs fun w' _ _ => w' = w) : Performs K mes D F σ f vs w fun _ _ => True :=
  performs hK (h.weaken fun _ _ _ _ h => ⟨h, trivial⟩)

/-! ### Procedures without state

For a procedure that computes a function the relations are the well-known functions on lists. -/

/-- The procedure computes the function `g`. -/
def Pure (g : List Value → Value) (_ : Unit) (vs : List Value) (v : Value) (_ : Unit) : Prop := v = g vs

/-- A value that counts as true. -/
def truth : Value → Bool
  | .obj a => a != c_f
  | _ => true

section
omit [Names]
variable {g : List Value → Value}

theorem truth_iff {v : Value} : truth v = true ↔ True' v := by
  unfold True'; cases v <;> simp [truth]

theorem truth_iff' {v : Value} : truth v = false ↔ v = .obj c_f := by
  cases v <;> simp [truth]

theorem maps_pure {u u' : Unit} : Maps (Pure g) u ls ys u' ↔ ys = ls.map fun x => g [x] := by
  refine ⟨fun h => ?_, fun h => ?_⟩
  · induction h with
    | nil => rfl
    | cons h _ ih => rw [List.map_cons, ih, show _ = _ from h]
  · subst h
    induction ls with
    | nil => exact .nil
    | cons x xs ih => exact .cons rfl ih

theorem maps2_pure {u u' : Unit} : Maps2 (Pure g) u ls ms ys u' ↔ ys = List.zipWith (fun x y => g [x, y]) ls ms := by
  refine ⟨fun h => ?_, fun h => ?_⟩
  · induction h with
    | nil1 => rfl
    | nil2 => simp
    | cons h _ ih => rw [List.zipWith_cons_cons, ih, show _ = _ from h]
  · subst h
    induction ls generalizing ms with
    | nil => exact .nil1
    | cons x xs ih => cases ms with
      | nil => exact .nil2
      | cons y ys => exact .cons rfl ih

theorem filters_pure {u u' : Unit} : Filters (Pure g) u ls ys u' ↔ ys = ls.filter fun x => truth (g [x]) := by
  refine ⟨fun h => ?_, fun h => ?_⟩
  · induction h with
    | nil => rfl
    | keep h hy _ ih => cases (show _ = _ from h); rw [List.filter_cons_of_pos (p := fun x => truth (g [x])) (truth_iff.2 hy), ih]
    | drop h _ ih => rw [List.filter_cons_of_neg (by rw [truth_iff'.2 (show _ = _ from h).symm]; simp), ih]
  · subst h
    induction ls with
    | nil => exact .nil
    | cons x xs ih =>
      rw [List.filter_cons]
      split
      · next h => exact .keep rfl (truth_iff.1 h) ih
      · next h => exact .drop (truth_iff'.1 (by simpa using h)).symm ih

theorem removes_pure {u u' : Unit} : Removes (Pure g) u ls ys u' ↔ ys = ls.filter fun x => !truth (g [x]) := by
  refine ⟨fun h => ?_, fun h => ?_⟩
  · induction h with
    | nil => rfl
    | keep h _ ih => rw [List.filter_cons_of_pos (by rw [truth_iff'.2 (show _ = _ from h).symm]; simp), ih]
    | drop h hy _ ih => cases (show _ = _ from h); rw [List.filter_cons_of_neg (by rw [truth_iff.2 hy]; simp), ih]
  · subst h
    induction ls with
    | nil => exact .nil
    | cons x xs ih =>
      rw [List.filter_cons]
      split
      · next h => exact .keep (truth_iff'.1 (by simpa using h)).symm ih
      · next h => exact .drop rfl (truth_iff.1 (by simpa using h)) ih

theorem filterMaps_pure {u u' : Unit} : FilterMaps (Pure g) u ls ys u' ↔ ys = (ls.map fun x => g [x]).filter truth := by
  refine ⟨fun h => ?_, fun h => ?_⟩
  · induction h with
    | nil => rfl
    | keep h hy _ ih => cases (show _ = _ from h); rw [List.map_cons, List.filter_cons_of_pos (truth_iff.2 hy), ih]
    | drop h _ ih => rw [List.map_cons, List.filter_cons_of_neg (by rw [truth_iff'.2 (show _ = _ from h).symm]; simp), ih]
  · subst h
    induction ls with
    | nil => exact .nil
    | cons x xs ih =>
      rw [List.map_cons, List.filter_cons]
      split
      · next h => exact .keep rfl (truth_iff.1 h) ih
      · next h => exact .drop (truth_iff'.1 (by simpa using h)).symm ih

theorem folds_pure {u u' : Unit} : Folds (Pure g) u a ls w u' ↔ w = ls.foldl (fun r x => g [x, r]) a := by
  refine ⟨fun h => ?_, fun h => ?_⟩
  · induction h with
    | nil => rfl
    | cons h _ ih => cases (show _ = _ from h); exact ih
  · subst h
    induction ls generalizing a with
    | nil => exact .nil
    | cons x xs ih => exact .cons rfl ih

theorem folds2_pure {u u' : Unit} : Folds2 (Pure g) u a ls ms w u' ↔ w = (ls.zip ms).foldl (fun r x => g [x.1, x.2, r]) a := by
  refine ⟨fun h => ?_, fun h => ?_⟩
  · induction h with
    | nil1 => rfl
    | nil2 => simp
    | cons h _ ih => cases (show _ = _ from h); exact ih
  · subst h
    induction ls generalizing a ms with
    | nil => exact .nil1
    | cons x xs ih => cases ms with
      | nil => exact .nil2
      | cons y ys => exact .cons rfl ih

theorem foldsRight_pure {u u' : Unit} : FoldsRight (Pure g) u a ls w u' ↔ w = ls.foldr (fun x r => g [x, r]) a := by
  refine ⟨fun h => ?_, fun h => ?_⟩
  · induction h with
    | nil => rfl
    | cons _ h ih => rw [List.foldr_cons, ← ih]; exact h
  · subst h
    induction ls with
    | nil => exact .nil
    | cons x xs ih => exact .cons ih rfl

theorem foldsRight2_pure {u u' : Unit} : FoldsRight2 (Pure g) u a ls ms w u' ↔ w = (ls.zip ms).foldr (fun x r => g [x.1, x.2, r]) a := by
  refine ⟨fun h => ?_, fun h => ?_⟩
  · induction h with
    | nil1 => rfl
    | nil2 => simp
    | cons _ h ih => rw [List.zip_cons_cons, List.foldr_cons, ← ih]; exact h
  · subst h
    induction ls generalizing ms with
    | nil => exact .nil1
    | cons x xs ih => cases ms with
      | nil => exact .nil2
      | cons y ys => exact .cons ih rfl

theorem finds_pure {u u' : Unit} : Finds (Pure g) u ls w u' ↔ w = (ls.find? fun x => truth (g [x])).getD (.obj c_f) := by
  refine ⟨fun h => ?_, fun h => ?_⟩
  · induction h with
    | nil => rfl
    | here h hy => cases (show _ = _ from h); rw [List.find?_cons_of_pos (p := fun x => truth (g [x])) (truth_iff.2 hy)]; rfl
    | next h _ ih => rw [List.find?_cons_of_neg (by rw [truth_iff'.2 (show _ = _ from h).symm]; simp), ih]
  · subst h
    induction ls with
    | nil => exact .nil
    | cons x xs ih =>
      rw [List.find?_cons]
      split
      · next h => exact .here rfl (truth_iff.1 h)
      · next h => exact .next (truth_iff'.1 h).symm ih

theorem indexes_pure {o : Option Nat} {u u' : Unit} : Indexes (Pure g) u ls o u' ↔ o = ls.findIdx? fun x => truth (g [x]) := by
  refine ⟨fun h => ?_, fun h => ?_⟩
  · induction h with
    | nil => rfl
    | here h hy => cases (show _ = _ from h); rw [List.findIdx?_cons, if_pos (truth_iff.2 hy)]
    | next h _ ih => rw [List.findIdx?_cons, if_neg (by rw [truth_iff'.2 (show _ = _ from h).symm]; simp), ih]
  · subst h
    induction ls with
    | nil => exact .nil
    | cons x xs ih =>
      rw [List.findIdx?_cons]
      split
      · next h => exact .here rfl (truth_iff.1 h)
      · next h => exact .next (truth_iff'.1 (by simpa using h)).symm ih

theorem takesWhile_pure {u u' : Unit} : TakesWhile (Pure g) u ls ys u' ↔ ys = ls.takeWhile fun x => truth (g [x]) := by
  refine ⟨fun h => ?_, fun h => ?_⟩
  · induction h with
    | nil => rfl
    | keep h hy _ ih => cases (show _ = _ from h); rw [List.takeWhile_cons_of_pos (p := fun x => truth (g [x])) (truth_iff.2 hy), ih]
    | stop h => rw [List.takeWhile_cons_of_neg (by rw [truth_iff'.2 (show _ = _ from h).symm]; simp)]
  · subst h
    induction ls with
    | nil => exact .nil
    | cons x xs ih =>
      rw [List.takeWhile_cons]
      split
      · next h => exact .keep rfl (truth_iff.1 h) ih
      · next h => exact .stop (truth_iff'.1 (by simpa using h)).symm

theorem anys_pure {u u' : Unit} : Anys (Pure g) u ls w u' ↔ w = ((ls.map fun x => g [x]).find? truth).getD (.obj c_f) := by
  refine ⟨fun h => ?_, fun h => ?_⟩
  · induction h with
    | nil => rfl
    | here h hy => cases (show _ = _ from h); rw [List.map_cons, List.find?_cons_of_pos (truth_iff.2 hy)]; rfl
    | next h _ ih => rw [List.map_cons, List.find?_cons_of_neg (by rw [truth_iff'.2 (show _ = _ from h).symm]; simp), ih]
  · subst h
    induction ls with
    | nil => exact .nil
    | cons x xs ih =>
      rw [List.map_cons, List.find?_cons]
      split
      · next h => exact .here rfl (truth_iff.1 h)
      · next h => exact .next (truth_iff'.1 h).symm ih

theorem everys_pure {u u' : Unit} : Everys (Pure g) u ls w u' →
    (truth w = true ↔ ∀ x ∈ ls, truth (g [x]) = true) ∧ (truth w = true → w = ((ls.getLast?.map fun x => g [x]).getD (.obj c_t))) := by
  intro h
  induction h with
  | nil => exact ⟨by simp [truth, c_t, c_f], fun _ => rfl⟩
  | last h => cases (show _ = _ from h); simp
  | stop h =>
    have := truth_iff'.2 (show _ = _ from h).symm
    refine ⟨⟨fun h => ?_, fun h => ?_⟩, fun h => ?_⟩
    · simp [truth] at h
    · rw [h _ List.mem_cons_self] at this; cases this
    · simp [truth] at h
  | next h hy _ ih =>
    cases (show _ = _ from h)
    rw [List.getLast?_cons_cons]
    refine ⟨ih.1.trans ⟨fun h x hx => ?_, fun h x hx => h x (List.mem_cons_of_mem _ hx)⟩, ih.2⟩
    rcases List.mem_cons.1 hx with rfl | hx
    · exact truth_iff.2 hy
    · exact h x hx

theorem membersBy_pure {x : Value} {o : Option (List Value)} {u u' : Unit} :
    MembersBy (Pure g) x u ls o u' ↔ o = (ls.findIdx? fun y => truth (g [x, y])).map ls.drop := by
  refine ⟨fun h => ?_, fun h => ?_⟩
  · induction h with
    | nil => rfl
    | here h hy => cases (show _ = _ from h); rw [List.findIdx?_cons, if_pos (truth_iff.2 hy)]; rfl
    | next h _ ih =>
      rw [List.findIdx?_cons, if_neg (by rw [truth_iff'.2 (show _ = _ from h).symm]; simp), ih, Option.map_map]; rfl
  · subst h
    induction ls with
    | nil => exact .nil
    | cons y ys ih =>
      rw [List.findIdx?_cons]
      split
      · next h => exact .here rfl (truth_iff.1 h)
      · next h =>
        rw [Option.map_map]
        exact .next (truth_iff'.1 (by simpa using h)).symm ih

end

/-! ### C54 -/

/-- `(filter pred lst)`: the elements with a true value, in order; `pred` is called for each, from the first to the last. -/
theorem C54_filter (hK : Implements K.builtin mes Computes) (hB : Behaves mes Computes d p P R) (hP : Filters P s ls ys s') (hL : Loaded F σ) (hR : R s F σ) :
    Performs K mes (d + 3 * ls.length + 8) F σ Lib.filter [p, listVal ls] (listVal ys) (R s') :=
  performs hK (Lib.filter_call hB hP hR hL.scope (Nat.le_refl _))

/-- `(remove pred lst)` -/
theorem C54_remove (hK : Implements K.builtin mes Computes) (hB : Behaves mes Computes d p P R) (hP : Removes P s ls ys s') (hL : Loaded F σ) (hR : R s F σ) :
    Performs K mes (d + 3 * ls.length + 14) F σ Lib.remove [p, listVal ls] (listVal ys) (R s') :=
  performs hK (Lib.remove_call hB hP hR hL.scope (Nat.le_refl _))

/-- `(find pred lst)`; it needs no stack for the length of the list. -/
theorem C54_find (hK : Implements K.builtin mes Computes) (hB : Behaves mes Computes d p P R) (hP : Finds P s ls w s') (hL : Loaded F σ) (hR : R s F σ) :
    Performs K mes (d + 8) F σ Lib.find [p, listVal ls] (w) (R s') :=
  performs hK (Lib.find_call hB hP hR hL.scope (Nat.le_refl _))

/-- `(fold proc init lst)` -/
theorem C54_fold (hK : Implements K.builtin mes Computes) (hB : Behaves mes Computes d p P R) (hP : Folds P s a ls w s') (hL : Loaded F σ) (hR : R s F σ) :
    Performs K mes (d + 9) F σ Lib.fold [p, a, listVal ls] (w) (R s') :=
  performs hK (Lib.fold_call hB hP hR hL.scope (Nat.le_refl _))

/-- `(fold proc init lst1 lst2)`. -/
theorem C54_fold2 (hK : Implements K.builtin mes Computes) (hB : Behaves mes Computes d p P R) (hP : Folds2 P s a ls ms w s') (hL : Loaded F σ) (hR : R s F σ) :
    Performs K mes (d + 9) F σ Lib.fold [p, a, listVal ls, listVal ms] (w) (R s') :=
  performs hK (Lib.fold_call2 hB hP hR hL.scope (Nat.le_refl _))

/-- `(fold-right proc init lst)` -/
theorem C54_fold_right (hK : Implements K.builtin mes Computes) (hB : Behaves mes Computes d p P R) (hP : FoldsRight P s a ls w s') (hL : Loaded F σ) (hR : R s F σ) :
    Performs K mes (d + 3 * ls.length + 9) F σ Lib.foldRight [p, a, listVal ls] (w) (R s') :=
  performs hK (Lib.foldRight_call hB hP hR hL.scope (Nat.le_refl _))

/-- `(fold-right proc init lst1 lst2)`. -/
theorem C54_fold_right2 (hK : Implements K.builtin mes Computes) (hB : Behaves mes Computes d p P R) (hP : FoldsRight2 P s a ls ms w s') (hL : Loaded F σ) (hR : R s F σ) :
    Performs K mes (d + 4 * ls.length + 9) F σ Lib.foldRight [p, a, listVal ls, listVal ms] (w) (R s') :=
  performs hK (Lib.foldRight_call2 hB hP hR hL.scope (Nat.le_refl _))

/-- `(map f lst)`; `f` is called from the first element to the last. -/
theorem C54_map (hK : Implements K.builtin mes Computes) (hB : Behaves mes Computes d p P R) (hP : Maps P s ls ys s') (hL : Loaded F σ) (hR : R s F σ) :
    Performs K mes (d + 3 * ls.length + 12) F σ Lib.map [p, listVal ls] (listVal ys) (R s') :=
  performs hK (Lib.map_call hB hP _ _ _ (Nat.le_refl _) hR hL.scope)

/-- `(map f lst1 lst2)`, until one of the lists ends. -/
theorem C54_map2 (hK : Implements K.builtin mes Computes) (hB : Behaves mes Computes d p P R) (hP : Maps2 P s ls ms ys s') (hL : Loaded F σ) (hR : R s F σ) :
    Performs K mes (d + 3 * ls.length + 14) F σ Lib.map [p, listVal ls, listVal ms] (listVal ys) (R s') :=
  performs hK (Lib.map_call2 hB hP _ _ _ (Nat.le_refl _) hR hL.scope)

/-- `(for-each f lst)`: the same calls as for `map`, in constant space. -/
theorem C54_for_each (hK : Implements K.builtin mes Computes) (hB : Behaves mes Computes d p P R) (hP : Maps P s ls ys s') (hL : Loaded F σ) (hR : R s F σ) :
    Performs K mes (d + 12) F σ Lib.forEach [p, listVal ls] (.obj c_unspecified) (R s') :=
  performs hK (Lib.forEach_call hB hP _ _ _ (Nat.le_refl _) hR hL.scope)

/-- `(for-each f lst1 lst2)`, until one of the lists ends. -/
theorem C54_for_each2 (hK : Implements K.builtin mes Computes) (hB : Behaves mes Computes d p P R) (hP : Maps2 P s ls ms ys s') (hL : Loaded F σ) (hR : R s F σ) :
    Performs K mes (d + 12) F σ Lib.forEach [p, listVal ls, listVal ms] (.obj c_unspecified) (R s') :=
  performs hK (Lib.forEach_call2 hB hP _ _ _ (Nat.le_refl _) hR hL.scope)

/-- `(filter-map f lst)`: the true values. -/
theorem C54_filter_map (hK : Implements K.builtin mes Computes) (hB : Behaves mes Computes d p P R) (hP : FilterMaps P s ls ys s') (hL : Loaded F σ) (hR : R s F σ) :
    Performs K mes (d + 3 * ls.length + 12) F σ Lib.filterMap [p, listVal ls] (listVal ys) (R s') :=
  performs hK (Lib.filterMap_call hB hP _ _ _ (Nat.le_refl _) hR hL.scope)

/-- `(take-while pred lst)` -/
theorem C54_take_while (hK : Implements K.builtin mes Computes) (hB : Behaves mes Computes d p P R) (hP : TakesWhile P s ls ys s') (hL : Loaded F σ) (hR : R s F σ) :
    Performs K mes (d + 3 * ls.length + 12) F σ Lib.takeWhile [p, listVal ls] (listVal ys) (R s') :=
  performs hK (Lib.takeWhile_call hB hP _ _ _ (Nat.le_refl _) hR hL.scope)

/-- `(any1 pred lst)`: the first true value; the elements behind it are not looked at. -/
theorem C54_any1 (hK : Implements K.builtin mes Computes) (hB : Behaves mes Computes d p P R) (hP : Anys P s ls w s') (hL : Loaded F σ) (hR : R s F σ) :
    Performs K mes (d + 12) F σ Lib.any1 [p, listVal ls] (w) (R s') :=
  performs hK (Lib.any1_call hB hP hR hL.scope (Nat.le_refl _))

/-- `(every1 pred lst)`: stops at the first false value, and gives the last value otherwise. -/
theorem C54_every1 (hK : Implements K.builtin mes Computes) (hB : Behaves mes Computes d p P R) (hP : Everys P s ls w s') (hL : Loaded F σ) (hR : R s F σ) :
    Performs K mes (d + 12) F σ Lib.every1 [p, listVal ls] (w) (R s') :=
  performs hK (Lib.every1_call hB hP hR hL.scope (Nat.le_refl _))

/-- `(list-index pred lst)`: the position of the first element with a true value, or `#f`.  Missing: several lists. -/
theorem C54_list_index_partial {o : Option Nat} (hK : Implements K.builtin mes Computes) (hB : Behaves mes Computes d p P R) (hP : Indexes P s ls o s')
    (hl : (ls.length : Int) < 2 ^ 63) (hL : Loaded F σ) (hR : R s F σ) :
    Performs K mes (d + 9) F σ Lib.listIndex [p, listVal ls] ((o.map fun i => Value.int (i : Nat)).getD (.obj c_f)) (R s') := by
  refine performs hK (.weaken (Lib.listIndex_call hB hP hl hR hL.scope (Nat.le_refl _)) ?_)
  rintro _ F₁ σ₁ _ ⟨rfl, h⟩
  refine ⟨?_, h⟩
  cases o with
  | none => rfl
  | some i => simp [Lib.indexVal]

/-- `(member x lst =)`: the rest of the list from the first element on that is equal to `x`, or `#f`. -/
theorem C54_member_partial {x : Value} {o : Option (List Value)} (hK : Implements K.builtin mes Computes) (hB : Behaves mes Computes d p P R)
    (hP : MembersBy P x s ls o s') (hL : Loaded F σ) (hR : R s F σ) :
    Performs K mes (d + 8) F σ Lib.member [x, listVal ls, p] ((o.map listVal).getD (.obj c_f)) (R s') := by
  refine performs hK (.weaken (Lib.member_call hB hP hR hL.scope (Nat.le_refl _)) ?_)
  rintro _ F₁ σ₁ _ ⟨rfl, h⟩
  refine ⟨?_, h⟩
  cases o <;> rfl

/-- `(reverse lst)` -/
theorem C54_reverse (hK : Implements K.builtin mes Computes) (hL : Loaded F σ) :
    Performs K mes 9 F σ Lib.reverse [listVal ls] (listVal ls.reverse) fun _ _ => True :=
  performs' hK (Lib.reverse_call hL.scope (Nat.le_refl _))

/-- `(make-list n x)` -/
theorem C54_make_list {n : Nat} (hK : Implements K.builtin mes Computes) (hn : (n : Int) < 2 ^ 63) (hL : Loaded F σ) :
    Performs K mes (3 * n + 10) F σ Lib.makeList [.int n, a] (listVal (List.replicate n a)) fun _ _ => True :=
  performs' hK (Lib.makeList_call hL.scope hn (Nat.le_refl _))

/-- `(list-ref lst k)` -/
theorem C54_list_ref {n : Nat} (hK : Implements K.builtin mes Computes) (hl : ls[n]? = some a) (hn : (n : Int) < 2 ^ 63) (hL : Loaded F σ) :
    Performs K mes 9 F σ Lib.listRef [listVal ls, .int n] a fun _ _ => True :=
  performs' hK (Lib.listRef_call hl hL.scope hn (Nat.le_refl _))

/-- `(list-head lst n)` -/
theorem C54_list_head {n : Nat} (hK : Implements K.builtin mes Computes) (hl : n ≤ ls.length) (hn : (n : Int) < 2 ^ 63) (hL : Loaded F σ) :
    Performs K mes (3 * n + 9) F σ Lib.listHead [listVal ls, .int n] (listVal (ls.take n)) fun _ _ => True :=
  performs' hK (Lib.listHead_call hl _ _ _ (Nat.le_refl _) hn hL.scope)

/-- `(list-tail lst n)` -/
theorem C54_list_tail {n : Nat} (hK : Implements K.builtin mes Computes) (hl : n ≤ ls.length) (hn : (n : Int) < 2 ^ 63) (hL : Loaded F σ) :
    Performs K mes 9 F σ Lib.listTail [listVal ls, .int n] (listVal (ls.drop n)) fun _ _ => True :=
  performs' hK (Lib.listTail_call hl _ _ _ (Nat.le_refl _) hn hL.scope)

/-! ### delete-duplicates -/

/-- The first of equal numbers. -/
def keepFirst : List Int → List Int
  | [] => []
  | n :: ns => n :: (keepFirst ns).filter (· ≠ n)

/-- C54 for `delete-duplicates`: "If there are multiple equal elements in the argument list, the result list only contains the first or
leftmost of these elements in the result" (SRFI-1). -/
def C54_full : Prop :=
  ∀ [Names] (mes : Bool) (F : Nat → Prop) (σ : Store) (ns : List Int), Loaded F σ →
    ∃ D σ', Call mes Computes D σ Lib.deleteDuplicates [listVal (ns.map .int), .prim (-1) 198] (listVal ((keepFirst ns).map .int)) σ'

/-- `(delete-duplicates lst =)` keeps the last of equal elements. -/
theorem C54_delete_duplicates_partial (hK : Implements K.builtin mes Computes) (hB : Behaves mes Computes d p P R) (hp : True' p)
    (hP : DeletesBy P s ls ys s') (hL : Loaded F σ) (hR : R s F σ) :
    Performs K mes (d + 3 * ls.length + 12) F σ Lib.deleteDuplicates [listVal ls, p] (listVal ys) (R s') :=
  performs hK (Lib.deleteDuplicates_call hB hp hP hR hL.scope (Nat.le_refl _))

omit [Names] in
/-- Builtins behave as `Computes` says. -/
theorem prim_behaves {n id : Int} :
    Behaves mes Computes 0 (.prim n id) (fun _ vs v _ => Computes n id vs v) (fun (_ : Unit) F σ => ∀ l, F l → l < σ.vals.length) :=
  ⟨fun h hR => ⟨_, _, .prim h, hR, rfl, Nat.le_refl _, fun _ _ _ => rfl, fun _ => .inl, hR⟩,
    fun vs h l hl => by have := h l hl; simp only [Store.push, List.length_append]; omega, fun h => h⟩

/-! ### A store with the library -/

/-- A number for each list of numbers. -/
def code : List Nat → Nat
  | [] => 0
  | c :: cs => 2 ^ c * (2 * code cs + 1)

omit [Names] in
theorem code_pos (c : Nat) (cs : List Nat) : 0 < code (c :: cs) := Nat.mul_pos (Nat.two_pow_pos c) (by omega)

omit [Names] in
theorem pow_odd_inj : ∀ {a b m n : Nat}, 2 ^ a * (2 * m + 1) = 2 ^ b * (2 * n + 1) → a = b ∧ m = n
  | 0, 0, m, n, h => ⟨rfl, by omega⟩
  | 0, b + 1, m, n, h => by rw [Nat.pow_succ, Nat.mul_comm (2 ^ b), Nat.mul_assoc] at h; omega
  | a + 1, 0, m, n, h => by rw [Nat.pow_succ, Nat.mul_comm (2 ^ a), Nat.mul_assoc] at h; omega
  | a + 1, b + 1, m, n, h => by
    rw [Nat.pow_succ, Nat.pow_succ, Nat.mul_comm (2 ^ a), Nat.mul_comm (2 ^ b), Nat.mul_assoc, Nat.mul_assoc] at h
    obtain ⟨h1, h2⟩ := pow_odd_inj (Nat.eq_of_mul_eq_mul_left (by omega) h)
    exact ⟨by omega, h2⟩

omit [Names] in
theorem code_inj : ∀ {xs ys : List Nat}, code xs = code ys → xs = ys
  | [], [], _ => rfl
  | [], y :: ys, h => by have := code_pos y ys; rw [← h] at this; exact absurd this (by decide)
  | x :: xs, [], h => by have := code_pos x xs; rw [h] at this; exact absurd this (by decide)
  | x :: xs, y :: ys, h => by
    obtain ⟨h1, h2⟩ := pow_odd_inj h
    rw [h1, code_inj h2]

/-- Some addresses of names. -/
instance someNames : Names where
  nm s := code (s.toList.map Char.toNat)
  inj x y h := by
    have h := code_inj (Int.ofNat.inj h)
    exact String.toList_inj.1 (List.map_inj_right (fun a b h => Char.toNat_inj.1 h) |>.1 h)

/-- A store with the library, and further values. -/
def libStore [Names] (vs : List Value) : Store := ⟨table.map (·.2) ++ vs, fun x => table.findIdx? fun e => decide (nm e.1 = x)⟩

theorem table_find {E : List (String × Value)} {x : String} {w : Value} (h : E.lookup x = some w) :
    ∃ l, (E.findIdx? fun e => decide (nm e.1 = nm x)) = some l ∧ (E.map (·.2))[l]? = some w := by
  induction E with
  | nil => cases h
  | cons e E ih =>
    rw [List.lookup_cons] at h
    rw [List.findIdx?_cons]
    by_cases hx : x = e.1
    · subst hx
      simp only [BEq.rfl, Option.some.injEq] at h
      exact ⟨0, by simp, by simp [h]⟩
    · rw [show (x == e.1) = false by simpa using hx] at h
      obtain ⟨l, h1, h2⟩ := ih h
      exact ⟨l + 1, by rw [if_neg (by simpa using fun h => hx (Names.inj _ _ h).symm), h1]; rfl, by simpa using h2⟩

/-- The library is loaded in it. -/
theorem libStore_loaded {vs : List Value} (h : ∀ l, F l → table.length ≤ l ∧ l < (libStore vs).vals.length) : Loaded F (libStore vs) := by
  refine ⟨fun l hl => (h l hl).2, fun x w hx => ?_⟩
  obtain ⟨l, h1, h2⟩ := table_find hx
  obtain ⟨hl, -⟩ := List.getElem?_eq_some_iff.1 h2
  rw [List.length_map] at hl
  exact ⟨l, h1, by simp only [libStore]; rw [List.getElem?_append_left (by simpa using hl)]; exact h2, fun hf => by have := (h l hf).1; omega⟩

theorem libStore_loaded' {vs : List Value} : Loaded (fun _ => False) (libStore vs) := libStore_loaded fun _ h => h.elim

open Classical in
omit [Names] in
theorem computes_eq {n m : Int} : Computes (-1) 198 [.int n, .int m] (.obj (if n = m then c_t else c_f)) := by
  have hn : Neighbours (· = ·) [n, m] ↔ n = m := by
    refine ⟨fun h => h 0 n m rfl rfl, fun h i a b h1 h2 => ?_⟩
    rcases i with _ | i
    · cases h1; cases h2; exact h
    · simp at h2
  have := Computes.equal (ns := [n, m])
  simp only [Value.bool, hn] at this
  by_cases h : n = m
  · simp only [h, if_true] at this ⊢; exact this
  · simp only [h, if_false] at this ⊢; exact this

omit [Names] in
/-- C54 does not hold for `delete-duplicates`: `(delete-duplicates '(1 2 1) =)` is `(2 1)`
(/repo/mes/module/srfi/srfi-1.mes:135-142). -/
theorem C54_delete_duplicates_false : ¬ C54_full := by
  intro h
  obtain ⟨D, σ', h⟩ := h true (fun _ => False) (libStore []) [1, 2, 1] libStore_loaded'
  have hd : DeletesBy (S := Unit) (fun _ vs v _ => Computes (-1) 198 vs v) () [.int 1, .int 2, .int 1] [.int 2, .int 1] () :=
    .drop (s₁ := ()) (.next (s₁ := ()) (computes_eq (n := 1) (m := 2)) (.here (computes_eq (n := 1) (m := 1)) (by simp [True', c_t, c_f])))
      (.keep (s₁ := ()) (.next (s₁ := ()) (computes_eq (n := 2) (m := 1)) .nil) (.keep .nil .nil))
  obtain ⟨F', σ'', h1, -⟩ := C54_delete_duplicates_partial (K := builtins) implements_builtins (prim_behaves (mes := true)) (by simp [True'])
    hd (libStore_loaded' (vs := [])) (fun _ h => h.elim)
  have := listVal_inj (call_det (δ := Computes) (fun _ _ _ _ _ => computes_det) h1 h).1
  simp [keepFirst] at this


/-! ### The hypotheses hold -/

section
omit [Names]

/-- A procedure with a state: `(lambda (x) (set! counter (+ counter 1)))`. -/
def countClo [Names] : Value := .clo [nm "x"] none [.set (nm "counter") (.app (.var (nm "+")) [.var (nm "counter"), .const (.int 1)])]
  fun y => if y = nm "counter" then some table.length else none

/-- It counts the calls. -/
def Counts (n : Nat) (vs : List Value) (v : Value) (n' : Nat) : Prop := vs.length = 1 ∧ n' = n + 1 ∧ ((n + 1 : Nat) : Int) < 2 ^ 63 ∧ v = .obj c_unspecified

def CountState [Names] (n : Nat) (F : Nat → Prop) (σ : Store) : Prop :=
  (∀ l, F l ↔ l = table.length) ∧ σ.vals[table.length]? = some (.int n) ∧ Loaded F σ

theorem count_behaves [Names] : Behaves mes Computes 5 countClo Counts CountState := by
  refine ⟨?_, ?_, fun h => h.2.2.below⟩
  · rintro n n' vs v F σ ⟨h1, rfl, h2, rfl⟩ ⟨hF, hc, hL⟩
    obtain ⟨x, rfl⟩ := List.length_eq_one_iff.1 h1
    obtain ⟨l, hl, hv, hf⟩ := hL.defined "+" _ rfl
    obtain ⟨hlen, -⟩ := List.getElem?_eq_some_iff.1 hc
    obtain ⟨hlen', -⟩ := List.getElem?_eq_some_iff.1 hv
    have ne : ∀ {a b : String}, a ≠ b → nm a ≠ nm b := fun h h' => h (Names.inj _ _ h')
    have hplus : Eval mes Computes 4 (bindAll ([nm "x"] ++ (none : Option Int).toList) σ.vals.length
          fun y => if y = nm "counter" then some table.length else none) { σ with vals := σ.vals ++ [x] }
        (.app (.var (nm "+")) [.var (nm "counter"), .const (.int 1)]) (.int (n + 1 : Nat)) { σ with vals := σ.vals ++ [x] } := by
      refine .app (fun _ => trivial) (.cons (.var (l := table.length) (v := .int n) ?_ ?_) (.cons (.const (.int 1)) .nil))
        (.var (l := l) (v := .prim (-1) 200) ?_ ?_) (.prim ?_)
      · simp [Store.find, bindAll, ne (show "counter" ≠ "x" by decide)]
      · show (σ.vals ++ [x])[table.length]? = _
        rw [List.getElem?_append_left hlen]; exact hc
      · simp [Store.find, bindAll, ne (show "+" ≠ "x" by decide), ne (show "+" ≠ "counter" by decide), hl]
      · show (σ.vals ++ [x])[l]? = _
        rw [List.getElem?_append_left hlen']; exact hv
      · have := Computes.plus (ns := [(n : Int), 1]) (fun k => by
          rcases k with _ | _ | k
          · simp [Word]
          · simp [Word]; omega
          · simp [Word]; omega)
        simpa [Literal.val] using this
    refine ⟨_, F, .clo (ps := [x]) rfl (.one (.set hplus (l := table.length) ?_)), ⟨hF, ?_, ?_⟩, ?_⟩
    · simp [Store.find, bindAll, ne (show "counter" ≠ "x" by decide)]
    · show (((σ.vals ++ [x]).set table.length (.int (n + 1 : Nat)))[table.length]?) = _
      rw [List.getElem?_set_self (by simp; omega)]
    · refine ⟨fun l hl => ?_, fun y w hy => ?_⟩
      · show l < ((σ.vals ++ [x]).set table.length (.int (n + 1 : Nat))).length
        have := hL.below l hl; simp; omega
      · obtain ⟨l', h1, h2, h3⟩ := hL.defined y w hy
        obtain ⟨h4, -⟩ := List.getElem?_eq_some_iff.1 h2
        refine ⟨l', h1, ?_, h3⟩
        show (((σ.vals ++ [x]).set table.length (.int (n + 1 : Nat)))[l']?) = _
        rw [List.getElem?_set_ne (fun h => h3 ((hF _).2 h.symm)), List.getElem?_append_left h4]; exact h2
    · refine ⟨rfl, ?_, fun l' h4 h3 => ?_, fun _ => .inl, fun l hl => ?_⟩
      · show _ ≤ ((σ.vals ++ [x]).set table.length (.int (n + 1 : Nat))).length
        simp
      · show (((σ.vals ++ [x]).set table.length (.int (n + 1 : Nat)))[l']?) = _
        rw [List.getElem?_set_ne (fun h => h3 ((hF _).2 h.symm)), List.getElem?_append_left h4]
      · show l < ((σ.vals ++ [x]).set table.length (.int (n + 1 : Nat))).length
        have := hL.below l hl; simp; omega
  · rintro n F σ vs ⟨hF, hc, hL⟩
    obtain ⟨hlen, -⟩ := List.getElem?_eq_some_iff.1 hc
    refine ⟨hF, ?_, fun l hl => ?_, fun y w hy => ?_⟩
    · simp only [Store.push]; rw [List.getElem?_append_left hlen]; exact hc
    · have := hL.below l hl; simp only [Store.push, List.length_append]; omega
    · obtain ⟨l', h1, h2, h3⟩ := hL.defined y w hy
      obtain ⟨h4, -⟩ := List.getElem?_eq_some_iff.1 h2
      exact ⟨l', h1, by simp only [Store.push]; rw [List.getElem?_append_left h4]; exact h2, h3⟩

/-- `for-each` and `map` with it: three elements are counted. -/
example : Loaded (fun l => l = table.length) (libStore [.int 0]) ∧ CountState 0 (fun l => l = table.length) (libStore [.int 0]) ∧
    Maps Counts 0 [.int 7, .char 65, .obj c_nil] [.obj c_unspecified, .obj c_unspecified, .obj c_unspecified] 3 := by
  have : Loaded (fun l => l = table.length) (libStore [.int 0]) := libStore_loaded fun l h => by subst h; simp [libStore]
  exact ⟨this, ⟨fun _ => .rfl, by simp [libStore], this⟩,
    .cons (s₁ := 1) ⟨rfl, rfl, by omega, rfl⟩ (.cons (s₁ := 2) ⟨rfl, rfl, by omega, rfl⟩ (.cons (s₁ := 3) ⟨rfl, rfl, by omega, rfl⟩ .nil))⟩

/-- What the builtins `null?`, `cons` and `=` do. -/
def isNull (_ : Unit) (vs : List Value) (v : Value) (_ : Unit) : Prop := Computes 1 144 vs v
def consing (_ : Unit) (vs : List Value) (v : Value) (_ : Unit) : Prop := Computes 2 171 vs v
def equals (_ : Unit) (vs : List Value) (v : Value) (_ : Unit) : Prop := Computes (-1) 198 vs v

theorem null_yes : isNull () [.obj c_nil] (.obj c_t) () := by
  have := Computes.null (v := .obj c_nil); simpa [Value.bool, isNull] using this
theorem null_no {n : Int} : isNull () [.int n] (.obj c_f) () := by
  have := Computes.null (v := .int n); simpa [Value.bool, isNull] using this
theorem yes_true : True' (.obj c_t) := by simp [True', c_t, c_f]

/-- Builtins as procedures: `(filter null? '(1 () 2))` and so on. -/
example : (Behaves mes Computes 0 (.prim 1 144) isNull fun (_ : Unit) F σ => ∀ l, F l → l < σ.vals.length) ∧
    Loaded (fun _ => False) (libStore []) ∧ (∀ l, False → l < (libStore []).vals.length) ∧ Implements builtins.builtin mes Computes ∧
    Filters isNull () [.int 1, .obj c_nil, .int 2] [.obj c_nil] () ∧
    Removes isNull () [.int 1, .obj c_nil, .int 2] [.int 1, .int 2] () ∧
    Finds isNull () [.int 1, .obj c_nil, .int 2] (.obj c_nil) () ∧
    Indexes isNull () [.int 1, .obj c_nil, .int 2] (some 1) () ∧
    FilterMaps isNull () [.int 1, .obj c_nil, .int 2] [.obj c_t] () ∧
    TakesWhile isNull () [.obj c_nil, .int 1, .obj c_nil] [.obj c_nil] () ∧
    Anys isNull () [.int 1, .obj c_nil, .int 2] (.obj c_t) () ∧
    Everys isNull () [.obj c_nil, .int 1, .obj c_nil] (.obj c_f) () :=
  ⟨prim_behaves, libStore_loaded', fun _ h => h.elim, implements_builtins,
    .drop (s₁ := ()) null_no (.keep (s₁ := ()) null_yes yes_true (.drop null_no .nil)),
    .keep (s₁ := ()) null_no (.drop (s₁ := ()) null_yes yes_true (.keep null_no .nil)),
    .next (s₁ := ()) null_no (.here null_yes yes_true),
    .next (s₁ := ()) (i := some 0) null_no (.here null_yes yes_true),
    .drop (s₁ := ()) null_no (.keep (s₁ := ()) null_yes yes_true (.drop null_no .nil)),
    .keep (s₁ := ()) null_yes yes_true (.stop null_no),
    .next (s₁ := ()) null_no (.here null_yes yes_true),
    .next (s₁ := ()) null_yes yes_true (.stop null_no)⟩

/-- Two lists, and folding: `(fold cons '() '(1 2))`, `(fold-right cons '() '(1 2))`, `(map cons '(1 2) '(3))`; and comparing:
`(member 2 '(1 2 3) =)`, `(delete-duplicates '(1 2 1) =)`. -/
example : (Behaves mes Computes 0 (.prim 2 171) consing fun (_ : Unit) F σ => ∀ l, F l → l < σ.vals.length) ∧
    (Behaves mes Computes 0 (.prim (-1) 198) equals fun (_ : Unit) F σ => ∀ l, F l → l < σ.vals.length) ∧
    Folds consing () (.obj c_nil) [.int 1, .int 2] (listVal [.int 2, .int 1]) () ∧
    FoldsRight consing () (.obj c_nil) [.int 1, .int 2] (listVal [.int 1, .int 2]) () ∧
    Maps consing () [] [] () ∧ Maps2 consing () [.int 1, .int 2] [.int 3] [.pair (.int 1) (.int 3)] () ∧
    MembersBy equals (.int 2) () [.int 1, .int 2, .int 3] (some [.int 2, .int 3]) () ∧
    DeletesBy equals () [.int 1, .int 2, .int 1] [.int 2, .int 1] () :=
  ⟨prim_behaves, prim_behaves, .cons (s₁ := ()) .cons (.cons (s₁ := ()) .cons .nil),
    .cons (s₁ := ()) (.cons (s₁ := ()) .nil .cons) .cons, .nil, .cons (s₁ := ()) .cons .nil2,
    .next (s₁ := ()) (computes_eq (n := 2) (m := 1)) (.here (computes_eq (n := 2) (m := 2)) yes_true),
    .drop (s₁ := ()) (.next (s₁ := ()) (computes_eq (n := 1) (m := 2)) (.here (computes_eq (n := 1) (m := 1)) yes_true))
      (.keep (s₁ := ()) (.next (s₁ := ()) (computes_eq (n := 2) (m := 1)) .nil) (.keep .nil .nil))⟩

/-- Three arguments: `(lambda (x y r) (cons x r))` with two lists. -/
def ofThree (_ : Unit) (vs : List Value) (v : Value) (_ : Unit) : Prop := Computes (-1) 143 vs v

example : (Behaves mes Computes 0 (.prim (-1) 143) ofThree fun (_ : Unit) F σ => ∀ l, F l → l < σ.vals.length) ∧
    Folds2 ofThree () (.int 0) [.int 1, .int 2] [.int 3] (listVal [.int 1, .int 3, .int 0]) () ∧
    FoldsRight2 ofThree () (.int 0) [.int 1] [.int 3, .int 4] (listVal [.int 1, .int 3, .int 0]) () :=
  ⟨prim_behaves, .cons (s₁ := ()) .list .nil2, .cons (s₁ := ()) .nil1 .list⟩

example : ([Value.int 5, .int 6] : List Value)[1]? = some (.int 6) ∧ (1 : Nat) ≤ ([Value.int 5, .int 6] : List Value).length ∧ ((1 : Nat) : Int) < 2 ^ 63 :=
  ⟨rfl, by decide, by decide⟩

end

end Mes.Props
