import Verif.Proof.LibraryLists
import Verif.Proof.Determinism
import Verif.Spec.LibraryMore
/-
`fold` and `fold-right` for three lists, `filter-map` for two.
-/
namespace Mes.Lib
open Spec

variable [Names] {mes : Bool} {d d' : Nat} {ρ : Locals} {σ σ' σ₁ σ₂ σ₃ : Store} {F F' F₁ F₂ : Nat → Prop}
  {S : Type} {P : S → List Value → Value → S → Prop} {R : S → (Nat → Prop) → Store → Prop} {p l a w : Value} {s s' : S} {ls ms ns ys : List Value}
  {Q : Value → (Nat → Prop) → Store → Prop}

theorem cadr_call {a b c : Value} (hs : Scope F σ (fun _ => none) table) :
    Ca mes (d + 4) F σ cadr [.pair a (.pair b c)] (fun w F' σ' => w = b ∧ F' = F ∧ σ' = σ.push [.pair a (.pair b c)]) := by
  refine .proc (xs := ["x"]) hs rfl fun ρ' hs' => .one ?_
  val hs'
  exact ⟨rfl, rfl, rfl⟩

/-- The test of three lists: true if one of them is empty. -/
theorem or3_done {E : List (String × Value)} (hs : Scope F σ ρ (("lst1", listVal ls) :: ("lst2", listVal ms) :: ("lst3", listVal ns) :: E))
    (hr : E.lookup "null?" = some (.prim 1 144)) (he : ls = [] ∨ ms = [] ∨ ns = [])
    (hq : ∀ us, Q (.obj c_t) F (σ.push us)) :
    Ev mes (d + 6) ρ F σ (or' [call "null?" [v "lst1"], call "null?" [v "lst2"], call "null?" [v "lst3"]]) Q := by
  refine .or hs (.val (eval_null hs hr (hs.var rfl)) hs.below ?_)
  rcases ls with _ | ⟨x, xs⟩
  · exact .inl ⟨by simp [nullVal, listVal, c_t, c_f], hq _⟩
  · refine .inr ⟨rfl, fun ρ' hs' => .or hs' (.val (eval_null hs' hr (hs'.var rfl)) hs'.below ?_)⟩
    have pp : ∀ us, (σ.push [nullVal (listVal (x :: xs))]).push us = σ.push (nullVal (listVal (x :: xs)) :: us) := fun us => by simp [Store.push]
    rcases ms with _ | ⟨y, ys⟩
    · exact .inl ⟨by simp [nullVal, listVal, c_t, c_f], by rw [pp]; exact hq _⟩
    · refine .inr ⟨rfl, fun ρ'' hs'' => ?_⟩
      rcases ns with _ | ⟨z, zs⟩
      · refine .val (eval_null hs'' hr (hs''.var rfl)) hs''.below ?_
        rw [pp]; exact hq _
      · simp at he

theorem or3_more {x y z : Value} {E : List (String × Value)}
    (hs : Scope F σ ρ (("lst1", listVal (x :: ls)) :: ("lst2", listVal (y :: ms)) :: ("lst3", listVal (z :: ns)) :: E))
    (hr : E.lookup "null?" = some (.prim 1 144)) (hq : ∀ us, Q (.obj c_f) F (σ.push us)) :
    Ev mes (d + 6) ρ F σ (or' [call "null?" [v "lst1"], call "null?" [v "lst2"], call "null?" [v "lst3"]]) Q := by
  refine .or hs (.val (eval_null hs hr (hs.var rfl)) hs.below ?_)
  refine .inr ⟨rfl, fun ρ' hs' => .or hs' (.val (eval_null hs' hr (hs'.var rfl)) hs'.below ?_)⟩
  have pp : ∀ us, (σ.push [nullVal (listVal (x :: ls))]).push us = σ.push (nullVal (listVal (x :: ls)) :: us) := fun us => by simp [Store.push]
  refine .inr ⟨rfl, fun ρ'' hs'' => ?_⟩
  refine .val (eval_null hs'' hr (hs''.var rfl)) hs''.below ?_
  rw [pp]; exact hq _

def foldBody3 : List Expr :=
  [.ite (or' [call "null?" [v "lst1"], call "null?" [v "lst2"], call "null?" [v "lst3"]]) (v "result")
    (call "loop" [call "cdr" [v "lst1"], call "cdr" [v "lst2"], call "cdr" [v "lst3"],
      call "proc" [call "car" [v "lst1"], call "car" [v "lst2"], call "car" [v "lst3"], v "result"]])]

theorem fold_loop3 (hB : Behaves mes Computes d p P R) (hP : Folds3 P s a ls ms ns w s') :
    ∀ D F σ ρ i l r, d + 11 ≤ D → R s F σ →
    Scope F σ ρ (("loop", loopClo ["lst1", "lst2", "lst3", "result"] foldBody3 ρ) :: ("proc", p) :: ("init", i) :: ("lst1", l) :: ("rest", r) :: table) →
    Ca mes D F σ (loopClo ["lst1", "lst2", "lst3", "result"] foldBody3 ρ) [listVal ls, listVal ms, listVal ns, a] (Gives R w s') := by
  induction hP with
  | done he =>
    intro D F σ ρ i l r hD hR hs
    obtain ⟨D, rfl⟩ := more (k := 11) (D := D) (by omega)
    refine .proc hs rfl fun ρ' hs' => .one (.ite (or3_done hs' rfl he fun us => .inl ⟨?_, by simp [c_t, c_f]⟩))
    val hs'.push _
    exact ⟨rfl, hB.push _ (hB.push _ hR)⟩
  | @cons s s₁ s₂ a b c x xs y ys z zs h _ ih =>
    intro D F σ ρ i l r hD hR hs
    obtain ⟨D, rfl⟩ := more (k := 11) (D := D) (by omega)
    refine .proc hs rfl fun ρ' hs' => .one (.ite (or3_more hs' rfl fun us => .inr ⟨.call (hs'.push _) rfl (.cons ?_), rfl⟩))
    val hs'.push _
    refine .cons ?_
    val hs'.push _
    refine .cons ?_
    val hs'.push _
    refine .cons (.call (hs'.push _) rfl ?_)
    args hs'.push _
    refine .of hB h (hB.push _ (hB.push _ hR)) (by omega) fun F₁ σ₁ hS hR₁ => .nil hS.below ?_
    exact ih _ _ _ _ _ _ _ (by omega) hR₁ (((hs.push _).push _).step hS)

theorem fold_call3 {more' : List Value} (hB : Behaves mes Computes d p P R) (hP : Folds3 P s a ls ms ns w s') (hR : R s F σ) (hs : Scope F σ (fun _ => none) table)
    (hd : d + 11 ≤ d') : Ca mes d' F σ fold ([p, a, listVal ls] ++ (listVal ms :: listVal ns :: more')) (Gives R w s') := by
  obtain ⟨D, rfl⟩ := more (k := 11) (D := d') (by omega)
  refine .rest (xs := ["proc", "init", "lst1"]) (ps := [p, a, listVal ls]) (vs := listVal ms :: listVal ns :: more') hs rfl fun ρ' hs' => .one ?_
  no hs'
  no hs'
  refine .loop hs' fun ρ'' hs'' => ?_
  refine .cons ?_
  val hs''
  refine .cons ?_
  val hs''
  refine .cons (.call hs'' rfl ?_)
  args hs''
  refine .weaken (cadr_call hs''.globals) ?_
  rintro _ _ _ _ ⟨rfl, rfl, rfl⟩
  args hs''.push _
  exact fun _ => fold_loop3 hB hP _ _ _ _ _ _ _ hd (hB.push _ (hB.push _ (hB.push _ hR))) (hs''.push _)

def foldRightBody3 : List Expr :=
  [.ite (or' [call "null?" [v "lst1"], call "null?" [v "lst2"], call "null?" [v "lst3"]]) (v "init")
    (call "proc" [call "car" [v "lst1"], call "car" [v "lst2"], call "car" [v "lst3"],
      call "loop" [call "cdr" [v "lst1"], call "cdr" [v "lst2"], call "cdr" [v "lst3"]]])]

theorem foldRight_loop3 (hB : Behaves mes Computes d p P R) (hP : FoldsRight3 P s a ls ms ns w s') :
    ∀ D F σ ρ l r, d + 5 * ls.length + 11 ≤ D → R s F σ →
    Scope F σ ρ (("loop", loopClo ["lst1", "lst2", "lst3"] foldRightBody3 ρ) :: ("proc", p) :: ("init", a) :: ("lst1", l) :: ("rest", r) :: table) →
    Ca mes D F σ (loopClo ["lst1", "lst2", "lst3"] foldRightBody3 ρ) [listVal ls, listVal ms, listVal ns] (Gives R w s') := by
  induction hP with
  | done he =>
    intro D F σ ρ l r hD hR hs
    obtain ⟨D, rfl⟩ := more (k := 11) (D := D) (by omega)
    refine .proc hs rfl fun ρ' hs' => .one (.ite (or3_done hs' rfl he fun us => .inl ⟨?_, by simp [c_t, c_f]⟩))
    val hs'.push _
    exact ⟨rfl, hB.push _ (hB.push _ hR)⟩
  | @cons s s₁ s₂ b c x xs y ys z zs _ h ih =>
    intro D F σ ρ l r hD hR hs
    simp only [List.length_cons] at hD
    obtain ⟨D, rfl⟩ := more (k := 16) (D := D) (by omega)
    refine .proc hs rfl fun ρ' hs' => .one (.ite (or3_more hs' rfl fun us => .inr ⟨.call (hs'.push _) rfl (.cons ?_), rfl⟩))
    val hs'.push _
    refine .cons ?_
    val hs'.push _
    refine .cons ?_
    val hs'.push _
    refine .cons (.call (hs'.push _) rfl ?_)
    args hs'.push _
    refine .weaken (ih _ _ _ _ _ _ (by omega) (hB.push _ (hB.push _ hR)) ((hs.push _).push _)) ?_
    rintro _ F₁ σ₁ hS ⟨rfl, hR₁⟩
    exact .nil hS.below (.of hB h hR₁ (by omega) fun F₂ σ₂ _ hR₂ => ⟨rfl, hR₂⟩)

theorem foldRight_call3 {more' : List Value} (hB : Behaves mes Computes d p P R) (hP : FoldsRight3 P s a ls ms ns w s') (hR : R s F σ)
    (hs : Scope F σ (fun _ => none) table) (hd : d + 5 * ls.length + 11 ≤ d') :
    Ca mes d' F σ foldRight ([p, a, listVal ls] ++ (listVal ms :: listVal ns :: more')) (Gives R w s') := by
  obtain ⟨D, rfl⟩ := more (k := 11) (D := d') (by omega)
  refine .rest (xs := ["proc", "init", "lst1"]) (ps := [p, a, listVal ls]) (vs := listVal ms :: listVal ns :: more') hs rfl fun ρ' hs' => .one ?_
  no hs'
  no hs'
  refine .loop hs' fun ρ'' hs'' => ?_
  refine .cons ?_
  val hs''
  refine .cons ?_
  val hs''
  refine .cons (.call hs'' rfl ?_)
  args hs''
  refine .weaken (cadr_call hs''.globals) ?_
  rintro _ _ _ _ ⟨rfl, rfl, rfl⟩
  args hs''.push _
  exact fun _ => foldRight_loop3 hB hP _ _ _ _ _ _ hd (hB.push _ (hB.push _ (hB.push _ hR))) (hs''.push _)

theorem filterMap_call2 (hB : Behaves mes Computes d p P R) (hP : FilterMaps2 P s ls ms ys s') :
    ∀ D F σ, ls.length ≤ ms.length → d + 3 * ls.length + 15 ≤ D → R s F σ → Scope F σ (fun _ => none) table →
    Ca mes D F σ filterMap [p, listVal ls, listVal ms] (Gives R (listVal ys) s') := by
  induction hP with
  | @done s xs ys he =>
    intro D F σ hl hD hR hs
    obtain ⟨D, rfl⟩ := more (k := 15) (D := D) (by omega)
    have : xs = [] := by
      rcases he with rfl | rfl
      · rfl
      · cases xs <;> simp at hl ⊢
    subst this
    refine .rest (xs := ["f", "h"]) (ps := [p, listVal []]) (vs := [listVal ys]) hs rfl fun ρ' hs' => .one ?_
    yes hs'
    val hs'
    exact ⟨rfl, hB.push _ hR⟩
  | @keep s s₁ s₂ x xs y ys z zs h hz _ ih =>
    intro D F σ hl hD hR hs
    simp only [List.length_cons] at hD hl
    obtain ⟨D, rfl⟩ := more (k := 15) (D := D) (by omega)
    refine .rest (xs := ["f", "h"]) (ps := [p, listVal (x :: xs)]) (vs := [listVal (y :: ys)]) hs rfl fun ρ' hs' => .one ?_
    no hs'
    no hs'
    yes hs'
    refine .let' hs' (.cons (.call hs' rfl (.cons ?_)))
    val hs'
    refine .cons (.call hs' rfl ?_)
    args hs'
    refine .weaken (caar_call hs'.globals) ?_
    rintro _ _ _ _ ⟨rfl, rfl, rfl⟩
    refine .nil (hs'.push _).below (.of hB h (hB.push _ (hB.push _ hR)) (by omega) fun F₁ σ₁ hS hR₁ => .nil hS.below ⟨rfl, fun ρ₁ hs₁ => ?_⟩)
    refine .one (.ite ?_)
    val hs₁
    refine .inl ⟨.call hs₁ rfl (.cons ?_), hz⟩
    val hs₁
    refine .cons (.call hs₁ rfl (.cons ?_))
    val hs₁
    refine .cons ?_
    val hs₁
    refine .cons (.call hs₁ rfl ?_)
    args hs₁
    refine .weaken (cdar_call hs₁.globals) ?_
    rintro _ _ _ _ ⟨rfl, rfl, rfl⟩
    refine .nil (hs₁.push _).below ?_
    refine .weaken (ih _ _ _ (by omega) (by omega) (hB.push _ (hB.push _ hR₁)) (hs₁.push _).globals) ?_
    rintro _ F₂ σ₂ hS₂ ⟨rfl, hR₂⟩
    exact .nil hS₂.below (.prim hS₂.below .cons ⟨rfl, hR₂⟩)
  | @drop s s₁ s₂ x xs y ys zs h _ ih =>
    intro D F σ hl hD hR hs
    simp only [List.length_cons] at hD hl
    obtain ⟨D, rfl⟩ := more (k := 15) (D := D) (by omega)
    refine .rest (xs := ["f", "h"]) (ps := [p, listVal (x :: xs)]) (vs := [listVal (y :: ys)]) hs rfl fun ρ' hs' => .one ?_
    no hs'
    no hs'
    yes hs'
    refine .let' hs' (.cons (.call hs' rfl (.cons ?_)))
    val hs'
    refine .cons (.call hs' rfl ?_)
    args hs'
    refine .weaken (caar_call hs'.globals) ?_
    rintro _ _ _ _ ⟨rfl, rfl, rfl⟩
    refine .nil (hs'.push _).below (.of hB h (hB.push _ (hB.push _ hR)) (by omega) fun F₁ σ₁ hS hR₁ => .nil hS.below ⟨rfl, fun ρ₁ hs₁ => ?_⟩)
    refine .one ?_
    no hs₁
    refine .call hs₁ rfl (.cons ?_)
    val hs₁
    refine .cons ?_
    val hs₁
    refine .cons (.call hs₁ rfl ?_)
    args hs₁
    refine .weaken (cdar_call hs₁.globals) ?_
    rintro _ _ _ _ ⟨rfl, rfl, rfl⟩
    refine .nil (hs₁.push _).below ?_
    exact ih _ _ _ (by omega) (by omega) (hB.push _ (hB.push _ hR₁)) (hs₁.push _).globals

/-! ### map -/

/-- `(caadr t)` and the like: a procedure with a simple body. -/
theorem Ev.sel {E : List (String × Value)} {f x : String} {b : Expr} {u : Value} (hs : Scope F σ ρ E) (hf : E.lookup f = some (proc ["x"] [b]))
    (hx : E.lookup x = some u) (hb : ∀ n ρ' σ', Scope F σ' ρ' (("x", u) :: table) → Eval mes Computes (n + 7) ρ' σ' b w σ') (hq : Q w F (σ.push [u])) :
    Ev mes (d + 8) ρ F σ (Lib.call f [v x]) Q := by
  refine .call hs hf (.cons (.val (hs.var hx) hs.below (.nil hs.below ?_)))
  exact .proc (xs := ["x"]) hs.globals rfl fun ρ' hs' => .one (.val (hb (d + 1) ρ' _ hs') hs'.below hq)

def mapTest : Expr := or' [call "null?" [v "h"], and' [call "pair?" [v "t"], call "null?" [call "car" [v "t"]]],
  and' [call "pair?" [v "t"], call "pair?" [call "cdr" [v "t"]], call "null?" [call "cadr" [v "t"]]]]

omit [Names] in
theorem push_push (σ : Store) (us us' : List Value) : (σ.push us).push us' = σ.push (us ++ us') := by simp [Store.push]

/-- The test of `map` with three lists and more: true if one of the first three is empty. -/
theorem mapTest_done {r : Value} (hs : Scope F σ ρ (("f", p) :: ("h", listVal ls) :: ("t", .pair (listVal ms) (.pair (listVal ns) r)) :: table))
    (he : ls = [] ∨ ms = [] ∨ ns = []) (hq : ∀ us, Q (.obj c_t) F (σ.push us)) : Ev mes (d + 20) ρ F σ mapTest Q := by
  refine .or hs ?_
  val hs
  rcases ls with _ | ⟨x, xs⟩
  · exact .inl ⟨by simp [nullVal, listVal, c_t, c_f], hq _⟩
  · refine .inr ⟨rfl, fun ρ' hs' => .or hs' ?_⟩
    yes hs'
    val hs'
    rcases ms with _ | ⟨y, ys⟩
    · exact .inl ⟨by simp [nullVal, listVal, c_t, c_f], by rw [push_push]; exact hq _⟩
    · refine .inr ⟨rfl, fun ρ'' hs'' => ?_⟩
      rcases ns with _ | ⟨z, zs⟩
      · yes hs''
        yes hs''
        refine .call hs'' rfl (.cons (.sel (w := listVal []) hs'' rfl rfl (fun _ _ _ h => by simple h) ?_))
        refine .nil (hs''.push _).below (.prim (hs''.push _).below (computes_null _) ?_)
        rw [push_push, push_push]; exact hq _
      · simp at he

theorem mapTest_more {r x y z : Value}
    (hs : Scope F σ ρ (("f", p) :: ("h", listVal (x :: ls)) :: ("t", .pair (listVal (y :: ms)) (.pair (listVal (z :: ns)) r)) :: table))
    (hq : ∀ us, Q (.obj c_f) F (σ.push us)) : Ev mes (d + 20) ρ F σ mapTest Q := by
  refine .or hs ?_
  val hs
  refine .inr ⟨rfl, fun ρ' hs' => .or hs' ?_⟩
  yes hs'
  val hs'
  refine .inr ⟨rfl, fun ρ'' hs'' => ?_⟩
  yes hs''
  yes hs''
  refine .call hs'' rfl (.cons (.sel (w := listVal (z :: ns)) hs'' rfl rfl (fun _ _ _ h => by simple h) ?_))
  refine .nil (hs''.push _).below (.prim (hs''.push _).below (computes_null _) ?_)
  rw [push_push, push_push]; exact hq _

/-- `(null? (cddr t))` and `(null? (cdddr t))` -/
theorem Ev.nullSel {E : List (String × Value)} {f x : String} {b t e : Expr} {u w' : Value} (hs : Scope F σ ρ E) (hf : E.lookup f = some (proc ["x"] [b]))
    (hn : E.lookup "null?" = some (.prim 1 144))
    (hx : E.lookup x = some u) (hb : ∀ n ρ' σ', Scope F σ' ρ' (("x", u) :: table) → Eval mes Computes (n + 7) ρ' σ' b w' σ')
    (h : nullVal w' = .obj c_t ∧ Ev mes (d + 11) ρ F (σ.push [u]) t Q ∨ nullVal w' = .obj c_f ∧ Ev mes (d + 11) ρ F (σ.push [u]) e Q) :
    Ev mes (d + 11) ρ F σ (.ite (Lib.call "null?" [Lib.call f [v x]]) t e) Q := by
  refine .ite (.call hs hn (.cons (.sel hs hf hx hb ?_)))
  refine .nil (hs.push _).below (.prim (hs.push _).below (computes_null _) ?_)
  rcases h with ⟨h1, h2⟩ | ⟨h1, h2⟩
  · exact .inl ⟨h2, by rw [h1]; simp [c_t, c_f]⟩
  · exact .inr ⟨h2, h1⟩

theorem map_call3 (hB : Behaves mes Computes d p P R) (hP : Maps3 P s ls ms ns ys s') :
    ∀ D F σ, d + 5 * ls.length + 30 ≤ D → R s F σ → Scope F σ (fun _ => none) table →
    Ca mes D F σ map [p, listVal ls, listVal ms, listVal ns] (Gives R (listVal ys) s') := by
  induction hP with
  | @done s xs ys zs he =>
    intro D F σ hD hR hs
    obtain ⟨D, rfl⟩ := more (k := 30) (D := D) (by omega)
    refine .rest (xs := ["f", "h"]) (ps := [p, listVal xs]) (vs := [listVal ys, listVal zs]) hs rfl fun ρ' hs' => .one (.ite
      (mapTest_done hs' he fun us => .inl ⟨?_, by simp [c_t, c_f]⟩))
    val hs'.push _
    exact ⟨rfl, hB.push _ (hB.push _ hR)⟩
  | @cons s s₁ s₂ x xs y ys z zs u us h _ ih =>
    intro D F σ hD hR hs
    simp only [List.length_cons] at hD
    obtain ⟨D, rfl⟩ := more (k := 35) (D := D) (by omega)
    refine .rest (xs := ["f", "h"]) (ps := [p, listVal (x :: xs)]) (vs := [listVal (y :: ys), listVal (z :: zs)]) hs rfl fun ρ' hs' => .one (.ite
      (mapTest_more hs' fun us => .inr ⟨?_, rfl⟩))
    have hs₁ := hs'.push us
    no hs₁
    no hs₁
    refine .nullSel (w' := listVal []) hs₁ rfl rfl rfl (fun _ _ _ h => by simple h) (.inl ⟨rfl, ?_⟩)
    have hs₂ := hs₁.push [listVal [listVal (y :: ys), listVal (z :: zs)]]
    refine .call hs₂ rfl (.cons (.call hs₂ rfl (.cons ?_)))
    val hs₂
    refine .cons (.sel (w := y) hs₂ rfl rfl (fun _ _ _ h => by simple h) ?_)
    refine .cons (.sel (w := z) (hs₂.push _) rfl rfl (fun _ _ _ h => by simple h) ?_)
    have hs₃ := (hs₂.push [listVal [listVal (y :: ys), listVal (z :: zs)]]).push [listVal [listVal (y :: ys), listVal (z :: zs)]]
    refine .nil hs₃.below (.of hB h (hB.push _ (hB.push _ (hB.push _ (hB.push _ (hB.push _ hR))))) (by omega) fun F₁ σ₁ hS hR₁ => ?_)
    have hs₄ := hs₃.step hS
    refine .cons (.call hs₄ rfl (.cons ?_))
    val hs₄
    refine .cons ?_
    val hs₄
    refine .cons (.sel (w := listVal ys) hs₄ rfl rfl (fun _ _ _ h => by simple h) ?_)
    refine .cons (.sel (w := listVal zs) (hs₄.push _) rfl rfl (fun _ _ _ h => by simple h) ?_)
    refine .nil ((hs₄.push _).push _).below ?_
    refine .weaken (ih _ _ _ (by omega) (hB.push _ (hB.push _ hR₁)) ((hs₄.push _).push _).globals) ?_
    rintro _ F₂ σ₂ hS₂ ⟨rfl, hR₂⟩
    exact .nil hS₂.below (.prim hS₂.below .cons ⟨rfl, hR₂⟩)

/-- `(car (caddr t))` -/
theorem Ev.sel1 {E : List (String × Value)} {g f x : String} {b : Expr} {u w' : Value} {i : Int} (hs : Scope F σ ρ E)
    (hg : E.lookup g = some (.prim 1 i)) (hf : E.lookup f = some (proc ["x"] [b]))
    (hx : E.lookup x = some u) (hb : ∀ n ρ' σ', Scope F σ' ρ' (("x", u) :: table) → Eval mes Computes (n + 7) ρ' σ' b w' σ')
    (hc : Computes 1 i [w'] w) (hq : Q w F (σ.push [u])) :
    Ev mes (d + 10) ρ F σ (Lib.call g [Lib.call f [v x]]) Q :=
  .call hs hg (.cons (.sel hs hf hx hb (.nil (hs.push _).below (.prim (hs.push _).below hc hq))))

theorem map_call4 {os : List Value} (hB : Behaves mes Computes d p P R) (hP : Maps4 P s ls ms ns os ys s') :
    ∀ D F σ, (ls.length ≤ os.length ∨ ms.length ≤ os.length ∨ ns.length ≤ os.length) → d + 6 * ls.length + 30 ≤ D → R s F σ →
    Scope F σ (fun _ => none) table →
    Ca mes D F σ map [p, listVal ls, listVal ms, listVal ns, listVal os] (Gives R (listVal ys) s') := by
  induction hP with
  | @done s xs ys zs ws he =>
    intro D F σ hl hD hR hs
    obtain ⟨D, rfl⟩ := more (k := 30) (D := D) (by omega)
    have he' : xs = [] ∨ ys = [] ∨ zs = [] := by
      rcases he with he | he | he | rfl
      · exact .inl he
      · exact .inr (.inl he)
      · exact .inr (.inr he)
      · rcases hl with hl | hl | hl
        · exact .inl (List.length_eq_zero_iff.1 (by simpa using hl))
        · exact .inr (.inl (List.length_eq_zero_iff.1 (by simpa using hl)))
        · exact .inr (.inr (List.length_eq_zero_iff.1 (by simpa using hl)))
    refine .rest (xs := ["f", "h"]) (ps := [p, listVal xs]) (vs := [listVal ys, listVal zs, listVal ws]) hs rfl fun ρ' hs' => .one (.ite
      (mapTest_done hs' he' fun us => .inl ⟨?_, by simp [c_t, c_f]⟩))
    val hs'.push _
    exact ⟨rfl, hB.push _ (hB.push _ hR)⟩
  | @cons s s₁ s₂ x xs y ys z zs w ws u us h _ ih =>
    intro D F σ hl hD hR hs
    simp only [List.length_cons] at hD hl
    obtain ⟨D, rfl⟩ := more (k := 36) (D := D) (by omega)
    refine .rest (xs := ["f", "h"]) (ps := [p, listVal (x :: xs)]) (vs := [listVal (y :: ys), listVal (z :: zs), listVal (w :: ws)]) hs rfl
      fun ρ' hs' => .one (.ite (mapTest_more hs' fun us => .inr ⟨?_, rfl⟩))
    have hs₁ := hs'.push us
    no hs₁
    no hs₁
    refine .nullSel (w' := listVal [listVal (w :: ws)]) hs₁ rfl rfl rfl (fun _ _ _ h => by simple h) (.inr ⟨rfl, ?_⟩)
    refine .nullSel (w' := listVal []) (hs₁.push _) rfl rfl rfl (fun _ _ _ h => by simple h) (.inl ⟨rfl, ?_⟩)
    have hs₂ := (hs₁.push [listVal [listVal (y :: ys), listVal (z :: zs), listVal (w :: ws)]]).push [listVal [listVal (y :: ys), listVal (z :: zs), listVal (w :: ws)]]
    refine .call hs₂ rfl (.cons (.call hs₂ rfl (.cons ?_)))
    val hs₂
    refine .cons (.sel (w := y) hs₂ rfl rfl (fun _ _ _ h => by simple h) ?_)
    refine .cons (.sel (w := z) (hs₂.push _) rfl rfl (fun _ _ _ h => by simple h) ?_)
    refine .cons (.sel1 (w := w) (w' := listVal (w :: ws)) ((hs₂.push _).push _) rfl rfl rfl (fun _ _ _ h => by simple h) .car ?_)
    have hs₃ := ((hs₂.push [listVal [listVal (y :: ys), listVal (z :: zs), listVal (w :: ws)]]).push
      [listVal [listVal (y :: ys), listVal (z :: zs), listVal (w :: ws)]]).push [listVal [listVal (y :: ys), listVal (z :: zs), listVal (w :: ws)]]
    refine .nil hs₃.below (.of hB h (hB.push _ (hB.push _ (hB.push _ (hB.push _ (hB.push _ (hB.push _ (hB.push _ hR))))))) (by omega)
      fun F₁ σ₁ hS hR₁ => ?_)
    have hs₄ := hs₃.step hS
    refine .cons (.call hs₄ rfl (.cons ?_))
    val hs₄
    refine .cons ?_
    val hs₄
    refine .cons (.sel (w := listVal ys) hs₄ rfl rfl (fun _ _ _ h => by simple h) ?_)
    refine .cons (.sel (w := listVal zs) (hs₄.push _) rfl rfl (fun _ _ _ h => by simple h) ?_)
    refine .cons (.sel1 (w := listVal ws) (w' := listVal (w :: ws)) ((hs₄.push _).push _) rfl rfl rfl (fun _ _ _ h => by simple h) .cdr ?_)
    refine .nil (((hs₄.push _).push _).push _).below ?_
    refine .weaken (ih _ _ _ (by omega) (by omega) (hB.push _ (hB.push _ (hB.push _ hR₁))) (((hs₄.push _).push _).push _).globals) ?_
    rintro _ F₂ σ₂ hS₂ ⟨rfl, hR₂⟩
    exact .nil hS₂.below (.prim hS₂.below .cons ⟨rfl, hR₂⟩)

/-! ### `filter-map` fails when the second list is shorter -/

omit [Names] in
theorem det {e : Expr} {D D' : Nat} {w' : Value} (h : Eval mes Computes D ρ σ e w σ₁) (h' : Eval mes Computes D' ρ σ e w' σ₂) : w = w' ∧ σ₁ = σ₂ :=
  eval_det (δ := Computes) (fun _ _ _ _ _ => computes_det) h' h

omit [Names] in
theorem inv_seq {e : Expr} {D : Nat} (h : EvalSeq mes Computes D ρ σ [e] w σ') : Eval mes Computes D ρ σ e w σ' := by
  cases h with
  | one h => exact h
  | cons _ h => cases h

omit [Names] in
theorem inv_no {c t e : Expr} {D D' : Nat} (h : Eval mes Computes D ρ σ (.ite c t e) w σ') (hc : Eval mes Computes D' ρ σ c (.obj c_f) σ) :
    ∃ D, Eval mes Computes D ρ σ e w σ' := by
  cases h with
  | iteTrue h1 h2 _ => exact absurd (det h1 hc).1 h2
  | iteFalse h1 h2 => obtain ⟨_, rfl⟩ := det h1 hc; exact ⟨_, h2⟩

omit [Names] in
theorem inv_yes {c t e : Expr} {D D' : Nat} (h : Eval mes Computes D ρ σ (.ite c t e) w σ') (hc : Eval mes Computes D' ρ σ c (.obj c_t) σ) :
    ∃ D, Eval mes Computes D ρ σ t w σ' := by
  cases h with
  | iteTrue h1 _ h2 => obtain ⟨_, rfl⟩ := det h1 hc; exact ⟨_, h2⟩
  | iteFalse h1 h2 => have := (det h1 hc).1; simp [c_t, c_f] at this

omit [Names] in
theorem inv_app {f : Expr} {es : List Expr} {D : Nat} (hd : Direct f) (h : Eval mes Computes D ρ σ (.app f es) w σ') :
    ∃ D vs σ₁ fv σ₂, EvalArgs mes Computes D ρ σ es vs σ₁ ∧ Eval mes Computes D ρ σ₁ f fv σ₂ ∧ Call mes Computes (D + 1) σ₂ fv vs w σ' := by
  cases h with
  | app _ h1 h2 h3 => exact ⟨_, _, _, _, _, h1, h2, h3⟩
  | app2 _ h _ _ _ _ => exact absurd hd h

omit [Names] in
theorem inv_arg {e : Expr} {es : List Expr} {D : Nat} {vs : List Value} (h : EvalArgs mes Computes D ρ σ (e :: es) vs σ') :
    ∃ D u us σ₁, vs = u :: us ∧ Eval mes Computes D ρ σ e u σ₁ ∧ EvalArgs mes Computes D ρ σ₁ es us σ' := by
  cases h with | cons h1 h2 => exact ⟨_, _, _, _, rfl, h1, h2⟩

/-- `(caar '(() …))` has no value. -/
theorem caar_stuck {D : Nat} {c : Value} (hs : Scope F σ (fun _ => none) table) : ¬ Call mes Computes D σ caar [.pair (.obj c_nil) c] w σ' := by
  intro h
  cases h with
  | clo hp h =>
    simp only [paramVals, List.length_cons, List.length_map, List.length_nil, if_true, Option.some.injEq] at hp
    subst hp
    have hs' := hs.bind (xs := ["x"]) (vs := [.pair (.obj c_nil) c]) rfl
    obtain ⟨D, vs, σ₄, fv, σ₅, h3, h4, h5⟩ := inv_app (by trivial) (inv_seq h)
    obtain ⟨D', u', us, σ₆, rfl, h6, h7⟩ := inv_arg h3
    have hx : Eval mes Computes 3 (bindAll (["x"].map nm) σ.vals.length fun _ => none) (σ.push [.pair (.obj c_nil) c]) (call "car" [v "x"])
      (.obj c_nil) (σ.push [.pair (.obj c_nil) c]) := eval_car hs' rfl (hs'.var rfl)
    cases h7
    obtain ⟨rfl, rfl⟩ := det h6 hx
    obtain ⟨rfl, rfl⟩ := det h4 (hs'.var (d := 0) (x := "car") rfl)
    cases h5 with | prim hc => cases hc

/-- The variables in the body of a procedure with a rest parameter. -/
theorem inv_rest {D : Nat} {xs : List String} {r : String} {b : List Expr} {ps vs : List Value} (hs : Scope F σ (fun _ => none) table)
    (hl : ps.length = xs.length) (h : Call mes Computes D σ (procRest xs r b) (ps ++ vs) w σ') :
    ∃ ρ' σ₁, Scope F σ₁ ρ' ((xs ++ [r]).zip (ps ++ [listVal vs]) ++ table) ∧ EvalSeq mes Computes D ρ' σ₁ b w σ' := by
  cases h with
  | @clo _ _ _ _ _ _ _ ps' _ _ hp h =>
    have : ps ++ [listVal vs] = ps' := by simpa [paramVals, ← hl] using hp
    subst this
    exact ⟨_, _, hs.bind (by simp [hl]), by simpa [Store.push] using h⟩

theorem filterMap_stuck {D : Nat} {x : Value} (hs : Scope F σ (fun _ => none) table) :
    ¬ Call mes Computes D σ filterMap [p, listVal (x :: ls), listVal []] w σ' := by
  intro h
  obtain ⟨ρ', σ₁, hs', h⟩ := inv_rest (xs := ["f", "h"]) (r := "t") (ps := [p, listVal (x :: ls)]) (vs := [listVal []]) hs rfl h
  obtain ⟨D, h⟩ := inv_no (inv_seq h) (eval_null (d := 0) (u := listVal (x :: ls)) hs' rfl (hs'.var rfl))
  obtain ⟨D, h⟩ := inv_no h (eval_null (d := 0) (u := listVal [listVal []]) hs' rfl (hs'.var rfl))
  obtain ⟨D, h⟩ := inv_yes h (eval_null (d := 2) (u := listVal []) hs' rfl (eval_cdr (u := listVal []) hs' rfl (hs'.var rfl)))
  obtain ⟨D, vs, σ₁, fv, σ₂, h1, -, -⟩ := inv_app (by trivial) h
  obtain ⟨D, u, us, σ₃, -, h2, -⟩ := inv_arg h1
  obtain ⟨D, vs, σ₄, fv, σ₅, h3, -, -⟩ := inv_app (by trivial) h2
  obtain ⟨D, u', us, σ₆, -, h6, h7⟩ := inv_arg h3
  obtain ⟨rfl, rfl⟩ := det h6 (eval_car (d := 0) hs' rfl (hs'.var rfl))
  obtain ⟨D, u', us, σ₆, -, h6, -⟩ := inv_arg h7
  obtain ⟨D, vs, σ₄, fv, σ₅, h3, h4, h5⟩ := inv_app (by trivial) h6
  obtain ⟨D, u', us, σ₆, rfl, h6, h7⟩ := inv_arg h3
  cases h7
  obtain ⟨rfl, rfl⟩ := det h6 (hs'.var (d := 0) (x := "t") rfl)
  obtain ⟨rfl, rfl⟩ := det h4 (hs'.var (d := 0) (x := "caar") rfl)
  exact caar_stuck hs'.globals h5

/-! ### `map` fails when the fourth list is the shortest -/

theorem inv_ite {c t e : Expr} {D D' : Nat} {E : List (String × Value)} {u : Value} (h : Eval mes Computes D ρ σ (.ite c t e) w σ')
    (hc : Ev mes D' ρ F σ c fun u' F' σ₁ => u' = u ∧ Scope F' σ₁ ρ E) :
    ∃ D F' σ₁, Scope F' σ₁ ρ E ∧ (u ≠ .obj c_f ∧ Eval mes Computes D ρ σ₁ t w σ' ∨ u = .obj c_f ∧ Eval mes Computes D ρ σ₁ e w σ') := by
  obtain ⟨u', F', σ₁, h1, -, rfl, h3⟩ := hc
  cases h with
  | iteTrue h4 h5 h6 => obtain ⟨rfl, rfl⟩ := det h4 h1; exact ⟨_, F', _, h3, .inl ⟨h5, h6⟩⟩
  | iteFalse h4 h6 => obtain ⟨rfl, rfl⟩ := det h4 h1; exact ⟨_, F', _, h3, .inr ⟨rfl, h6⟩⟩

theorem inv_skip {e : Expr} {es : List Expr} {D D' : Nat} {E : List (String × Value)} {vs : List Value}
    (h : EvalArgs mes Computes D ρ σ (e :: es) vs σ') (he : Ev mes D' ρ F σ e fun _ F' σ₁ => Scope F' σ₁ ρ E) :
    ∃ D us F' σ₁, Scope F' σ₁ ρ E ∧ EvalArgs mes Computes D ρ σ₁ es us σ' := by
  obtain ⟨u', F', σ₁, h1, -, h3⟩ := he
  obtain ⟨D, u, us, σ₂, -, h4, h5⟩ := inv_arg h
  obtain ⟨rfl, rfl⟩ := det h4 h1
  exact ⟨D, us, F', _, h3, h5⟩

theorem map_stuck {D : Nat} {x y z : Value} (hs : Scope F σ (fun _ => none) table) :
    ¬ Call mes Computes D σ map [p, listVal (x :: ls), listVal (y :: ms), listVal (z :: ns), listVal []] w σ' := by
  intro h
  obtain ⟨ρ', σ₁, hs', h⟩ := inv_rest (xs := ["f", "h"]) (r := "t") (ps := [p, listVal (x :: ls)])
    (vs := [listVal (y :: ms), listVal (z :: ns), listVal []]) hs rfl h
  obtain ⟨D, F₁, σ₂, hs', h⟩ := inv_ite (u := .obj c_f) (inv_seq h) (mapTest_more (d := 0) hs' fun us => ⟨rfl, hs'.push us⟩)
  rcases h with ⟨h, -⟩ | ⟨-, h⟩
  · exact h rfl
  obtain ⟨D, h⟩ := inv_no h (eval_null (d := 0) (u := listVal [listVal (y :: ms), listVal (z :: ns), listVal []]) hs' rfl (hs'.var rfl))
  obtain ⟨D, h⟩ := inv_no h (eval_null (d := 2) (u := listVal [listVal (z :: ns), listVal []]) hs' rfl (eval_cdr (u := listVal (y :: ms)) hs' rfl (hs'.var rfl)))
  obtain ⟨D, F₁, σ₂, hs', h⟩ := inv_ite (u := .obj c_f) h (.call (d := 9) hs' rfl (.cons (.sel (d := 0) (w := listVal [listVal []]) hs' rfl rfl
    (fun _ _ _ h => by simple h) (.nil (hs'.push _).below (.prim (hs'.push _).below (computes_null _) ⟨rfl, hs'.push _⟩)))))
  rcases h with ⟨h, -⟩ | ⟨-, h⟩
  · exact h rfl
  obtain ⟨D, F₁, σ₂, hs', h⟩ := inv_ite (u := .obj c_t) h (.call (d := 9) hs' rfl (.cons (.sel (d := 0) (w := listVal []) hs' rfl rfl
    (fun _ _ _ h => by simple h) (.nil (hs'.push _).below (.prim (hs'.push _).below (computes_null _) ⟨rfl, hs'.push _⟩)))))
  replace h := h.elim (·.2) fun h => by have := h.1; simp [c_t, c_f] at this
  obtain ⟨D, vs, σ₃, fv, σ₄, h1, -, -⟩ := inv_app (by trivial) h
  obtain ⟨D, u, us, σ₃, -, h2, -⟩ := inv_arg h1
  obtain ⟨D, vs, σ₄, fv, σ₅, h3, -, -⟩ := inv_app (by trivial) h2
  obtain ⟨D, us, F₂, σ₆, hs', h4⟩ := inv_skip h3 (.val (eval_car (d := 0) (w := listVal ls) hs' rfl (hs'.var rfl)) hs'.below hs')
  obtain ⟨D, us, F₂, σ₆, hs', h4⟩ := inv_skip h4 (.sel (d := 0) (w := y) hs' rfl rfl (fun _ _ _ h => by simple h) (hs'.push _))
  obtain ⟨D, us, F₂, σ₆, hs', h4⟩ := inv_skip h4 (.sel (d := 0) (w := z) hs' rfl rfl (fun _ _ _ h => by simple h) (hs'.push _))
  obtain ⟨D, u, us, σ₃, -, h2, -⟩ := inv_arg h4
  obtain ⟨D, vs, σ₄, fv, σ₅, h3, h5, h6⟩ := inv_app (by trivial) h2
  obtain ⟨D, u, us, σ₃, rfl, h7, h8⟩ := inv_arg h3
  have hx := Ev.sel (mes := mes) (d := 0) (f := "caddr") (x := "t") (w := listVal []) (Q := fun u' F' σ₁ => u' = listVal [] ∧ Scope F' σ₁ ρ'
    ((["f", "h"] ++ ["t"]).zip ([p, listVal (x :: ls)] ++ [listVal [listVal (y :: ms), listVal (z :: ns), listVal []]]) ++ table)) hs' rfl rfl
    (fun _ _ _ h => by simple h) ⟨rfl, hs'.push _⟩
  obtain ⟨u', F', σ₈, h9, -, rfl, hs'⟩ := hx
  obtain ⟨rfl, rfl⟩ := det h7 h9
  cases h8
  obtain ⟨rfl, rfl⟩ := det h5 (hs'.var (d := 0) (x := "car") rfl)
  cases h6 with | prim hc => cases hc

end Mes.Lib
