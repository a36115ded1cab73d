import Verif.Proof.Library
/-
The procedures of the list library.
-/
namespace Mes.Lib
open Spec

variable [Names] {mes : Bool} {d d' : Nat} {ρ : Locals} {σ σ' σ₁ σ₂ σ₃ : Store} {F F' F₁ F₂ : Nat → Prop}
  {S : Type} {P : S → List Value → Value → S → Prop} {R : S → (Nat → Prop) → Store → Prop} {p l a w : Value} {s s' : S} {ls ms ys : List Value}
  {Q : Value → (Nat → Prop) → Store → Prop}

/-- The value is `w`, and the state `s` is in the store. -/
def Gives (R : S → (Nat → Prop) → Store → Prop) (w : Value) (s : S) (w' : Value) (F : Nat → Prop) (σ : Store) : Prop := w' = w ∧ R s F σ

omit [Names] in
theorem more {D k : Nat} (h : k ≤ D) : ∃ n, D = n + k := ⟨D - k, by omega⟩

def filterBody : List Expr :=
  [.ite (call "null?" [v "lst"]) nil'
      (.ite (call "pred" [call "car" [v "lst"]])
        (call "cons" [call "car" [v "lst"], call "loop" [call "cdr" [v "lst"]]])
        (call "loop" [call "cdr" [v "lst"]]))]

theorem filter_loop (hB : Behaves mes Computes d p P R) (hP : Filters P s ls ys s') :
    ∀ D F σ ρ l, d + 3 * ls.length + 8 ≤ D → R s F σ → Scope F σ ρ (("loop", loopClo ["lst"] filterBody ρ) :: ("pred", p) :: ("lst", l) :: table) →
    Ca mes D F σ (loopClo ["lst"] filterBody ρ) [listVal ls] (Gives R (listVal ys) s') := by
  induction hP with
  | nil =>
    intro D F σ ρ l hD hR hs
    obtain ⟨D, rfl⟩ := more (k := 8) (D := D) (by omega)
    refine .proc hs rfl fun ρ' hs' => .one ?_
    yes hs'
    val hs'
    exact ⟨rfl, hB.push _ hR⟩
  | @keep s s₁ s₂ x xs y ys h hy _ ih =>
    intro D F σ ρ l hD hR hs
    simp only [List.length_cons] at hD
    obtain ⟨D, rfl⟩ := more (k := 10) (D := D) (by omega)
    refine .proc hs rfl fun ρ' hs' => .one ?_
    no hs'
    refine .ite (.call hs' rfl ?_)
    args hs'
    refine .of hB h (hB.push _ hR) (by omega) fun F₁ σ₁ hS hR₁ => .inl ⟨.call (hs'.step hS) rfl (.cons ?_), hy⟩
    val hs'.step hS
    refine .cons (.call (hs'.step hS) rfl ?_)
    args hs'.step hS
    refine .weaken (ih _ _ _ _ _ (by omega) hR₁ ((hs.push _).step hS)) ?_
    rintro _ F₂ σ₂ hS₂ ⟨rfl, hR₂⟩
    exact .nil hS₂.below (.prim hS₂.below .cons ⟨rfl, hR₂⟩)
  | @drop s s₁ s₂ x xs ys h _ ih =>
    intro D F σ ρ l hD hR hs
    simp only [List.length_cons] at hD
    obtain ⟨D, rfl⟩ := more (k := 10) (D := D) (by omega)
    refine .proc hs rfl fun ρ' hs' => .one ?_
    no hs'
    refine .ite (.call hs' rfl ?_)
    args hs'
    refine .of hB h (hB.push _ hR) (by omega) fun F₁ σ₁ hS hR₁ => .inr ⟨.call (hs'.step hS) rfl ?_, rfl⟩
    args hs'.step hS
    exact ih _ _ _ _ _ (by omega) hR₁ ((hs.push _).step hS)

theorem filter_call (hB : Behaves mes Computes d p P R) (hP : Filters P s ls ys s') (hR : R s F σ) (hs : Scope F σ (fun _ => none) table)
    (hd : d + 3 * ls.length + 8 ≤ d') : Ca mes d' F σ filter [p, listVal ls] (Gives R (listVal ys) s') := by
  obtain ⟨D, rfl⟩ := more (k := 8) (D := d') (by omega)
  refine .proc (xs := ["pred", "lst"]) hs rfl fun ρ' hs' => .one (.loop hs' fun ρ'' hs'' => ?_)
  args hs''
  exact fun _ => filter_loop hB hP _ _ _ _ _ hd (hB.push _ (hB.push _ hR)) hs''

/-! ### remove -/

/-- The procedure that `remove` passes to `filter`. -/
def notClo (ρ : Locals) : Value := .clo (["x"].map nm) none [call "not" [call "pred" [v "x"]]] ρ

/-- It gives the negation. -/
def Negated (P : S → List Value → Value → S → Prop) (s : S) (vs : List Value) (w : Value) (s' : S) : Prop :=
  ∃ x y, vs = [x] ∧ P s [x] y s' ∧ (True' y ∧ w = .obj c_f ∨ y = .obj c_f ∧ w = .obj c_t)

omit [Names] in
theorem Removes.filters (h : Removes P s ls ys s') : Filters (Negated P) s ls ys s' := by
  induction h with
  | nil => exact .nil
  | keep h _ ih => exact .keep (y := .obj c_t) ⟨_, _, rfl, h, .inr ⟨rfl, rfl⟩⟩ (by simp [True', c_t, c_f]) ih
  | drop h hy _ ih => exact .drop ⟨_, _, rfl, h, .inl ⟨hy, rfl⟩⟩ ih

theorem notClo_behaves (hB : Behaves mes Computes d p P R) (l : Value) :
    Behaves mes Computes (d + 6) (notClo ρ) (Negated P) (fun s F σ => R s F σ ∧ Scope F σ ρ (("pred", p) :: ("lst", l) :: table)) := by
  refine ⟨?_, fun vs h => ⟨hB.push vs h.1, h.2.push vs⟩, fun h => hB.below h.1⟩
  rintro s s' vs w F σ ⟨x, y, rfl, hP, hy⟩ ⟨hR, hs⟩
  have : Ca mes (d + 6) F σ (notClo ρ) [x] (fun w' F' σ' => w' = w ∧ R s' F' σ') := by
    refine .proc hs rfl fun ρ' hs' => .one (.call hs' rfl (.cons (.call hs' rfl ?_)))
    args hs'
    refine .of hB hP (hB.push _ hR) (by omega) fun F₁ σ₁ hS hR₁ => .nil hS.below ?_
    refine .proc ((hs.push _).step hS |>.globals) rfl fun ρ'' hs'' => .one ?_
    rcases hy with ⟨hy, rfl⟩ | ⟨rfl, rfl⟩
    · refine .ite ?_
      val hs''
      refine .inl ⟨?_, hy⟩
      val hs''
      exact ⟨rfl, hB.push _ hR₁⟩
    · no hs''
      val hs''
      exact ⟨rfl, hB.push _ hR₁⟩
  obtain ⟨_, F', σ', h1, h2, rfl, h3⟩ := this
  exact ⟨σ', F', h1, ⟨h3, hs.step h2⟩, h2⟩

theorem remove_call (hB : Behaves mes Computes d p P R) (hP : Removes P s ls ys s') (hR : R s F σ) (hs : Scope F σ (fun _ => none) table)
    (hd : d + 3 * ls.length + 14 ≤ d') : Ca mes d' F σ remove [p, listVal ls] (Gives R (listVal ys) s') := by
  obtain ⟨D, rfl⟩ := more (k := 14) (D := d') (by omega)
  refine .proc (xs := ["pred", "lst"]) hs rfl fun ρ' hs' => .one (.call hs' rfl ?_)
  args hs'
  refine .weaken (filter_call (notClo_behaves (ρ := ρ') hB _) (Removes.filters hP) ⟨hB.push _ hR, hs'⟩ hs'.globals (by omega)) ?_
  rintro _ F₁ σ₁ _ ⟨rfl, h, _⟩
  exact ⟨rfl, h⟩

/-! ### find -/

def findBody : List Expr :=
  [.ite (call "null?" [v "lst"]) no (.ite (call "pred" [call "car" [v "lst"]]) (call "car" [v "lst"]) (call "loop" [call "cdr" [v "lst"]]))]

theorem find_loop (hB : Behaves mes Computes d p P R) (hP : Finds P s ls w s') :
    ∀ D F σ ρ l, d + 8 ≤ D → R s F σ → Scope F σ ρ (("loop", loopClo ["lst"] findBody ρ) :: ("pred", p) :: ("lst", l) :: table) →
    Ca mes D F σ (loopClo ["lst"] findBody ρ) [listVal ls] (Gives R w s') := by
  induction hP with
  | nil =>
    intro D F σ ρ l hD hR hs
    obtain ⟨D, rfl⟩ := more (k := 8) (D := D) (by omega)
    refine .proc hs rfl fun ρ' hs' => .one ?_
    yes hs'
    val hs'
    exact ⟨rfl, hB.push _ hR⟩
  | @here s s₁ x xs y h hy =>
    intro D F σ ρ l hD hR hs
    obtain ⟨D, rfl⟩ := more (k := 8) (D := D) (by omega)
    refine .proc hs rfl fun ρ' hs' => .one ?_
    no hs'
    refine .ite (.call hs' rfl ?_)
    args hs'
    refine .of hB h (hB.push _ hR) (by omega) fun F₁ σ₁ hS hR₁ => .inl ⟨?_, hy⟩
    val hs'.step hS
    exact ⟨rfl, hR₁⟩
  | @next s s₁ s₂ x xs z h _ ih =>
    intro D F σ ρ l hD hR hs
    obtain ⟨D, rfl⟩ := more (k := 8) (D := D) (by omega)
    refine .proc hs rfl fun ρ' hs' => .one ?_
    no hs'
    refine .ite (.call hs' rfl ?_)
    args hs'
    refine .of hB h (hB.push _ hR) (by omega) fun F₁ σ₁ hS hR₁ => .inr ⟨.call (hs'.step hS) rfl ?_, rfl⟩
    args hs'.step hS
    exact ih _ _ _ _ _ (by omega) hR₁ ((hs.push _).step hS)

theorem find_call (hB : Behaves mes Computes d p P R) (hP : Finds P s ls w s') (hR : R s F σ) (hs : Scope F σ (fun _ => none) table)
    (hd : d + 8 ≤ d') : Ca mes d' F σ find [p, listVal ls] (Gives R w s') := by
  obtain ⟨D, rfl⟩ := more (k := 8) (D := d') (by omega)
  refine .proc (xs := ["pred", "lst"]) hs rfl fun ρ' hs' => .one (.loop hs' fun ρ'' hs'' => ?_)
  args hs''
  exact fun _ => find_loop hB hP _ _ _ _ _ hd (hB.push _ (hB.push _ hR)) hs''

/-! ### fold -/

def foldBody : List Expr :=
  [.ite (call "null?" [v "lst1"]) (v "result") (call "loop" [call "cdr" [v "lst1"], call "proc" [call "car" [v "lst1"], v "result"]])]

theorem fold_loop (hB : Behaves mes Computes d p P R) (hP : Folds P s a ls w s') :
    ∀ D F σ ρ i l r, d + 9 ≤ D → R s F σ →
    Scope F σ ρ (("loop", loopClo ["lst1", "result"] foldBody ρ) :: ("proc", p) :: ("init", i) :: ("lst1", l) :: ("rest", r) :: table) →
    Ca mes D F σ (loopClo ["lst1", "result"] foldBody ρ) [listVal ls, a] (Gives R w s') := by
  induction hP with
  | nil =>
    intro D F σ ρ i l r hD hR hs
    obtain ⟨D, rfl⟩ := more (k := 9) (D := D) (by omega)
    refine .proc hs rfl fun ρ' hs' => .one ?_
    yes hs'
    val hs'
    exact ⟨rfl, hB.push _ hR⟩
  | @cons s s₁ s₂ a b c x xs h _ ih =>
    intro D F σ ρ i l r hD hR hs
    obtain ⟨D, rfl⟩ := more (k := 9) (D := D) (by omega)
    refine .proc hs rfl fun ρ' hs' => .one ?_
    no hs'
    refine .call hs' rfl (.cons ?_)
    val hs'
    refine .cons (.call hs' rfl ?_)
    args hs'
    refine .of hB h (hB.push _ hR) (by omega) fun F₁ σ₁ hS hR₁ => .nil hS.below ?_
    exact ih _ _ _ _ _ _ _ (by omega) hR₁ ((hs.push _).step hS)

theorem fold_call (hB : Behaves mes Computes d p P R) (hP : Folds P s a ls w s') (hR : R s F σ) (hs : Scope F σ (fun _ => none) table)
    (hd : d + 9 ≤ d') : Ca mes d' F σ fold [p, a, listVal ls] (Gives R w s') := by
  obtain ⟨D, rfl⟩ := more (k := 9) (D := d') (by omega)
  refine .rest (xs := ["proc", "init", "lst1"]) (ps := [p, a, listVal ls]) (vs := []) hs rfl fun ρ' hs' => .one ?_
  yes hs'
  refine .loop hs' fun ρ'' hs'' => ?_
  args hs''
  exact fun _ => fold_loop hB hP _ _ _ _ _ _ _ hd (hB.push _ (hB.push _ hR)) hs''

def foldBody2 : List Expr :=
  [.ite (or' [call "null?" [v "lst1"], call "null?" [v "lst2"]]) (v "result")
    (call "loop" [call "cdr" [v "lst1"], call "cdr" [v "lst2"], call "proc" [call "car" [v "lst1"], call "car" [v "lst2"], v "result"]])]

theorem fold_loop2 (hB : Behaves mes Computes d p P R) (hP : Folds2 P s a ls ms w s') :
    ∀ D F σ ρ i l r, d + 9 ≤ D → R s F σ →
    Scope F σ ρ (("loop", loopClo ["lst1", "lst2", "result"] foldBody2 ρ) :: ("proc", p) :: ("init", i) :: ("lst1", l) :: ("rest", r) :: table) →
    Ca mes D F σ (loopClo ["lst1", "lst2", "result"] foldBody2 ρ) [listVal ls, listVal ms, a] (Gives R w s') := by
  induction hP with
  | nil1 =>
    intro D F σ ρ i l r hD hR hs
    obtain ⟨D, rfl⟩ := more (k := 9) (D := D) (by omega)
    refine .proc hs rfl fun ρ' hs' => .one (.ite (.or hs' ?_))
    val hs'
    refine .inl ⟨by simp [nullVal, listVal, c_t, c_f], .inl ⟨?_, by simp [nullVal, listVal, c_t, c_f]⟩⟩
    val hs'.push _
    exact ⟨rfl, hB.push _ (hB.push _ hR)⟩
  | @nil2 s a xs =>
    intro D F σ ρ i l r hD hR hs
    obtain ⟨D, rfl⟩ := more (k := 9) (D := D) (by omega)
    refine .proc hs rfl fun ρ' hs' => .one (.ite (.or hs' ?_))
    val hs'
    rcases xs with _ | ⟨x, xs⟩
    · refine .inl ⟨by simp [nullVal, listVal, c_t, c_f], .inl ⟨?_, by simp [nullVal, listVal, c_t, c_f]⟩⟩
      val hs'.push _
      exact ⟨rfl, hB.push _ (hB.push _ hR)⟩
    · refine .inr ⟨rfl, fun ρ'' hs'' => ?_⟩
      val hs''
      refine .inl ⟨?_, by simp [nullVal, listVal, c_t, c_f]⟩
      val hs'.push _
      exact ⟨rfl, hB.push _ (hB.push _ hR)⟩
  | @cons s s₁ s₂ a b c x xs y ys h _ ih =>
    intro D F σ ρ i l r hD hR hs
    obtain ⟨D, rfl⟩ := more (k := 9) (D := D) (by omega)
    refine .proc hs rfl fun ρ' hs' => .one (.ite (.or hs' ?_))
    val hs'
    refine .inr ⟨rfl, fun ρ'' hs'' => ?_⟩
    val hs''
    refine .inr ⟨.call (hs'.push _) rfl (.cons ?_), rfl⟩
    val hs'.push _
    refine .cons ?_
    val hs'.push _
    refine .cons (.call (hs'.push _) rfl ?_)
    args hs'.push _
    refine .of hB h (hB.push _ (hB.push _ hR)) (by omega) fun F₁ σ₁ hS hR₁ => .nil hS.below ?_
    exact ih _ _ _ _ _ _ _ (by omega) hR₁ (((hs.push _).push _).step hS)

theorem fold_call2 (hB : Behaves mes Computes d p P R) (hP : Folds2 P s a ls ms w s') (hR : R s F σ) (hs : Scope F σ (fun _ => none) table)
    (hd : d + 9 ≤ d') : Ca mes d' F σ fold [p, a, listVal ls, listVal ms] (Gives R w s') := by
  obtain ⟨D, rfl⟩ := more (k := 9) (D := d') (by omega)
  refine .rest (xs := ["proc", "init", "lst1"]) (ps := [p, a, listVal ls]) (vs := [listVal ms]) hs rfl fun ρ' hs' => .one ?_
  no hs'
  yes hs'
  refine .loop hs' fun ρ'' hs'' => ?_
  args hs''
  exact fun _ => fold_loop2 hB hP _ _ _ _ _ _ _ hd (hB.push _ (hB.push _ hR)) hs''

/-! ### fold-right -/

def foldRightBody : List Expr :=
  [.ite (call "null?" [v "lst"]) (v "init") (call "proc" [call "car" [v "lst"], call "loop" [call "cdr" [v "lst"]]])]

theorem foldRight_loop (hB : Behaves mes Computes d p P R) (hP : FoldsRight P s a ls w s') :
    ∀ D F σ ρ l r, d + 3 * ls.length + 9 ≤ D → R s F σ →
    Scope F σ ρ (("loop", loopClo ["lst"] foldRightBody ρ) :: ("proc", p) :: ("init", a) :: ("lst1", l) :: ("rest", r) :: table) →
    Ca mes D F σ (loopClo ["lst"] foldRightBody ρ) [listVal ls] (Gives R w s') := by
  induction hP with
  | nil =>
    intro D F σ ρ l r hD hR hs
    obtain ⟨D, rfl⟩ := more (k := 9) (D := D) (by omega)
    refine .proc hs rfl fun ρ' hs' => .one ?_
    yes hs'
    val hs'
    exact ⟨rfl, hB.push _ hR⟩
  | @cons s s₁ s₂ b c x xs _ h ih =>
    intro D F σ ρ l r hD hR hs
    simp only [List.length_cons] at hD
    obtain ⟨D, rfl⟩ := more (k := 12) (D := D) (by omega)
    refine .proc hs rfl fun ρ' hs' => .one ?_
    no hs'
    refine .call hs' rfl (.cons ?_)
    val hs'
    refine .cons (.call hs' rfl ?_)
    args hs'
    refine .weaken (ih _ _ _ _ _ _ (by omega) (hB.push _ hR) (hs.push _)) ?_
    rintro _ F₁ σ₁ hS ⟨rfl, hR₁⟩
    exact .nil hS.below (.of hB h hR₁ (by omega) fun F₂ σ₂ _ hR₂ => ⟨rfl, hR₂⟩)

theorem foldRight_call (hB : Behaves mes Computes d p P R) (hP : FoldsRight P s a ls w s') (hR : R s F σ) (hs : Scope F σ (fun _ => none) table)
    (hd : d + 3 * ls.length + 9 ≤ d') : Ca mes d' F σ foldRight [p, a, listVal ls] (Gives R w s') := by
  obtain ⟨D, rfl⟩ := more (k := 9) (D := d') (by omega)
  refine .rest (xs := ["proc", "init", "lst1"]) (ps := [p, a, listVal ls]) (vs := []) hs rfl fun ρ' hs' => .one ?_
  yes hs'
  refine .loop hs' fun ρ'' hs'' => ?_
  args hs''
  exact fun _ => foldRight_loop hB hP _ _ _ _ _ _ hd (hB.push _ (hB.push _ hR)) hs''

def foldRightBody2 : List Expr :=
  [.ite (or' [call "null?" [v "lst1"], call "null?" [v "lst2"]]) (v "init")
    (call "proc" [call "car" [v "lst1"], call "car" [v "lst2"], call "loop" [call "cdr" [v "lst1"], call "cdr" [v "lst2"]]])]

theorem foldRight_loop2 (hB : Behaves mes Computes d p P R) (hP : FoldsRight2 P s a ls ms w s') :
    ∀ D F σ ρ l r, d + 4 * ls.length + 9 ≤ D → R s F σ →
    Scope F σ ρ (("loop", loopClo ["lst1", "lst2"] foldRightBody2 ρ) :: ("proc", p) :: ("init", a) :: ("lst1", l) :: ("rest", r) :: table) →
    Ca mes D F σ (loopClo ["lst1", "lst2"] foldRightBody2 ρ) [listVal ls, listVal ms] (Gives R w s') := by
  induction hP with
  | nil1 =>
    intro D F σ ρ l r hD hR hs
    obtain ⟨D, rfl⟩ := more (k := 9) (D := D) (by omega)
    refine .proc hs rfl fun ρ' hs' => .one (.ite (.or hs' ?_))
    val hs'
    refine .inl ⟨by simp [nullVal, listVal, c_t, c_f], .inl ⟨?_, by simp [nullVal, listVal, c_t, c_f]⟩⟩
    val hs'.push _
    exact ⟨rfl, hB.push _ (hB.push _ hR)⟩
  | @nil2 s xs =>
    intro D F σ ρ l r hD hR hs
    obtain ⟨D, rfl⟩ := more (k := 9) (D := D) (by omega)
    refine .proc hs rfl fun ρ' hs' => .one (.ite (.or hs' ?_))
    val hs'
    rcases xs with _ | ⟨x, xs⟩
    · refine .inl ⟨by simp [nullVal, listVal, c_t, c_f], .inl ⟨?_, by simp [nullVal, listVal, c_t, c_f]⟩⟩
      val hs'.push _
      exact ⟨rfl, hB.push _ (hB.push _ hR)⟩
    · refine .inr ⟨rfl, fun ρ'' hs'' => ?_⟩
      val hs''
      refine .inl ⟨?_, by simp [nullVal, listVal, c_t, c_f]⟩
      val hs'.push _
      exact ⟨rfl, hB.push _ (hB.push _ hR)⟩
  | @cons s s₁ s₂ b c x xs y ys _ h ih =>
    intro D F σ ρ l r hD hR hs
    simp only [List.length_cons] at hD
    obtain ⟨D, rfl⟩ := more (k := 13) (D := D) (by omega)
    refine .proc hs rfl fun ρ' hs' => .one (.ite (.or hs' ?_))
    val hs'
    refine .inr ⟨rfl, fun ρ'' hs'' => ?_⟩
    val hs''
    refine .inr ⟨.call (hs'.push _) rfl (.cons ?_), rfl⟩
    val hs'.push _
    refine .cons ?_
    val hs'.push _
    refine .cons (.call (hs'.push _) rfl ?_)
    args hs'.push _
    refine .weaken (ih _ _ _ _ _ _ (by omega) (hB.push _ (hB.push _ hR)) ((hs.push _).push _)) ?_
    rintro _ F₁ σ₁ hS ⟨rfl, hR₁⟩
    exact .nil hS.below (.of hB h hR₁ (by omega) fun F₂ σ₂ _ hR₂ => ⟨rfl, hR₂⟩)

theorem foldRight_call2 (hB : Behaves mes Computes d p P R) (hP : FoldsRight2 P s a ls ms w s') (hR : R s F σ) (hs : Scope F σ (fun _ => none) table)
    (hd : d + 4 * ls.length + 9 ≤ d') : Ca mes d' F σ foldRight [p, a, listVal ls, listVal ms] (Gives R w s') := by
  obtain ⟨D, rfl⟩ := more (k := 9) (D := d') (by omega)
  refine .rest (xs := ["proc", "init", "lst1"]) (ps := [p, a, listVal ls]) (vs := [listVal ms]) hs rfl fun ρ' hs' => .one ?_
  no hs'
  yes hs'
  refine .loop hs' fun ρ'' hs'' => ?_
  args hs''
  exact fun _ => foldRight_loop2 hB hP _ _ _ _ _ _ hd (hB.push _ (hB.push _ hR)) hs''

/-! ### reverse -/

def reverseBody : List Expr :=
  [.ite (call "null?" [v "lst"]) (v "r") (call "loop" [call "cdr" [v "lst"], call "cons" [call "car" [v "lst"], v "r"]])]

theorem reverse_loop : ∀ ms D F σ ρ l, 9 ≤ D →
    Scope F σ ρ (("loop", loopClo ["lst", "r"] reverseBody ρ) :: ("lst", l) :: table) →
    Ca mes D F σ (loopClo ["lst", "r"] reverseBody ρ) [listVal ls, listVal ms] (fun w _ _ => w = listVal (ls.reverse ++ ms)) := by
  induction ls with
  | nil =>
    intro ms D F σ ρ l hD hs
    obtain ⟨D, rfl⟩ := more (k := 9) (D := D) (by omega)
    refine .proc hs rfl fun ρ' hs' => .one ?_
    yes hs'
    val hs'
    rfl
  | cons x xs ih =>
    intro ms D F σ ρ l hD hs
    obtain ⟨D, rfl⟩ := more (k := 9) (D := D) (by omega)
    refine .proc hs rfl fun ρ' hs' => .one ?_
    no hs'
    refine .call hs' rfl ?_
    args hs'
    rw [List.reverse_cons, List.append_assoc]
    exact ih (x :: ms) (D + 9) F _ ρ l (by omega) (hs.push [listVal (x :: xs), listVal ms])

theorem reverse_call (hs : Scope F σ (fun _ => none) table) (hd : 9 ≤ d') :
    Ca mes d' F σ reverse [listVal ls] (fun w _ _ => w = listVal ls.reverse) := by
  obtain ⟨D, rfl⟩ := more (k := 9) (D := d') (by omega)
  refine .proc (xs := ["lst"]) hs rfl fun ρ' hs' => .one (.loop hs' fun ρ'' hs'' => ?_)
  args hs''
  have := reverse_loop (mes := mes) (ls := ls) [] (D + 9) F _ ρ'' _ hd hs''
  rw [List.append_nil] at this
  exact fun _ => this

/-! ### map -/

theorem caar_call {a b c : Value} (hs : Scope F σ (fun _ => none) table) :
    Ca mes (d + 4) F σ caar [.pair (.pair a b) c] (fun w F' σ' => w = a ∧ F' = F ∧ σ' = σ.push [.pair (.pair a b) c]) := by
  refine .proc (xs := ["x"]) hs rfl fun ρ' hs' => .one ?_
  val hs'
  exact ⟨rfl, rfl, rfl⟩

theorem cdar_call {a b c : Value} (hs : Scope F σ (fun _ => none) table) :
    Ca mes (d + 4) F σ cdar [.pair (.pair a b) c] (fun w F' σ' => w = b ∧ F' = F ∧ σ' = σ.push [.pair (.pair a b) c]) := by
  refine .proc (xs := ["x"]) hs rfl fun ρ' hs' => .one ?_
  val hs'
  exact ⟨rfl, rfl, rfl⟩

theorem map_call (hB : Behaves mes Computes d p P R) (hP : Maps P s ls ys s') :
    ∀ D F σ, d + 3 * ls.length + 12 ≤ D → R s F σ → Scope F σ (fun _ => none) table →
    Ca mes D F σ map [p, listVal ls] (Gives R (listVal ys) s') := by
  induction hP with
  | nil =>
    intro D F σ hD hR hs
    obtain ⟨D, rfl⟩ := more (k := 12) (D := D) (by omega)
    refine .rest (xs := ["f", "h"]) (ps := [p, listVal []]) (vs := []) hs rfl fun ρ' hs' => .one (.ite (.or hs' ?_))
    val hs'
    refine .inl ⟨by simp [nullVal, listVal, c_t, c_f], .inl ⟨?_, by simp [nullVal, listVal, c_t, c_f]⟩⟩
    val hs'.push _
    exact ⟨rfl, hB.push _ (hB.push _ hR)⟩
  | @cons s s₁ s₂ x xs y ys h _ ih =>
    intro D F σ hD hR hs
    simp only [List.length_cons] at hD
    obtain ⟨D, rfl⟩ := more (k := 12) (D := D) (by omega)
    refine .rest (xs := ["f", "h"]) (ps := [p, listVal (x :: xs)]) (vs := []) hs rfl fun ρ' hs' => .one (.ite (.or hs' ?_))
    val hs'
    refine .inr ⟨rfl, fun ρ'' hs'' => .or hs'' ?_⟩
    no hs''
    val hs''
    refine .inr ⟨rfl, fun ρ'' hs'' => ?_⟩
    no hs''
    val hs''
    refine .inr ⟨?_, rfl⟩
    have hs₁ := (hs'.push [nullVal (listVal (x :: xs))]).push [Literal.val (.obj c_f)]
    yes hs₁
    refine .call hs₁ rfl (.cons (.call hs₁ rfl ?_))
    args hs₁
    refine .of hB h (hB.push _ (hB.push _ (hB.push _ hR))) (by omega) fun F₁ σ₁ hS hR₁ => .cons (.call (hs₁.step hS) rfl ?_)
    args hs₁.step hS
    refine .weaken (ih _ _ _ (by omega) hR₁ (hs₁.step hS).globals) ?_
    rintro _ F₂ σ₂ hS₂ ⟨rfl, hR₂⟩
    exact .nil hS₂.below (.prim hS₂.below .cons ⟨rfl, hR₂⟩)

theorem map_call2 (hB : Behaves mes Computes d p P R) (hP : Maps2 P s ls ms ys s') :
    ∀ D F σ, d + 3 * ls.length + 14 ≤ D → R s F σ → Scope F σ (fun _ => none) table →
    Ca mes D F σ map [p, listVal ls, listVal ms] (Gives R (listVal ys) s') := by
  induction hP with
  | @nil1 s ys =>
    intro D F σ hD hR hs
    obtain ⟨D, rfl⟩ := more (k := 14) (D := D) (by omega)
    refine .rest (xs := ["f", "h"]) (ps := [p, listVal []]) (vs := [listVal ys]) hs rfl fun ρ' hs' => .one (.ite (.or hs' ?_))
    val hs'
    refine .inl ⟨by simp [nullVal, listVal, c_t, c_f], .inl ⟨?_, by simp [nullVal, listVal, c_t, c_f]⟩⟩
    val hs'.push _
    exact ⟨rfl, hB.push _ (hB.push _ hR)⟩
  | @nil2 s xs =>
    intro D F σ hD hR hs
    obtain ⟨D, rfl⟩ := more (k := 14) (D := D) (by omega)
    refine .rest (xs := ["f", "h"]) (ps := [p, listVal xs]) (vs := [listVal []]) hs rfl fun ρ' hs' => .one (.ite (.or hs' ?_))
    val hs'
    rcases xs with _ | ⟨x, xs⟩
    · refine .inl ⟨by simp [nullVal, listVal, c_t, c_f], .inl ⟨?_, by simp [nullVal, listVal, c_t, c_f]⟩⟩
      val hs'.push _
      exact ⟨rfl, hB.push _ (hB.push _ hR)⟩
    · refine .inr ⟨rfl, fun ρ'' hs'' => .or hs'' ?_⟩
      yes hs''
      val hs''
      refine .inl ⟨by simp [nullVal, listVal, c_t, c_f], .inl ⟨?_, by simp [nullVal, listVal, c_t, c_f]⟩⟩
      val (hs'.push _).push _
      exact ⟨rfl, hB.push _ (hB.push _ (hB.push _ hR))⟩
  | @cons s s₁ s₂ x xs y ys z zs h _ ih =>
    intro D F σ hD hR hs
    simp only [List.length_cons] at hD
    obtain ⟨D, rfl⟩ := more (k := 14) (D := D) (by omega)
    refine .rest (xs := ["f", "h"]) (ps := [p, listVal (x :: xs)]) (vs := [listVal (y :: ys)]) hs rfl fun ρ' hs' => .one (.ite (.or hs' ?_))
    val hs'
    refine .inr ⟨rfl, fun ρ'' hs'' => .or hs'' ?_⟩
    yes hs''
    val hs''
    refine .inr ⟨rfl, fun ρ'' hs'' => ?_⟩
    yes hs''
    no hs''
    val hs''
    refine .inr ⟨?_, rfl⟩
    have hs₁ := (hs'.push [nullVal (listVal (x :: xs))]).push [nullVal (listVal (y :: ys))]
    no hs₁
    yes hs₁
    refine .call hs₁ rfl (.cons (.call hs₁ rfl (.cons ?_)))
    val hs₁
    refine .cons (.call hs₁ rfl ?_)
    args hs₁
    refine .weaken (caar_call hs₁.globals) ?_
    rintro _ _ _ _ ⟨rfl, rfl, rfl⟩
    refine .nil (hs₁.push _).below (.of hB h (hB.push _ (hB.push _ (hB.push _ (hB.push _ hR)))) (by omega) fun F₁ σ₁ hS hR₁ => ?_)
    have hs₂ := (hs₁.push _).step hS
    refine .cons (.call hs₂ rfl (.cons ?_))
    val hs₂
    refine .cons ?_
    val hs₂
    refine .cons (.call hs₂ rfl ?_)
    args hs₂
    refine .weaken (cdar_call hs₂.globals) ?_
    rintro _ _ _ _ ⟨rfl, rfl, rfl⟩
    refine .nil (hs₂.push _).below ?_
    refine .weaken (ih _ _ _ (by omega) (hB.push _ hR₁) (hs₂.push _).globals) ?_
    rintro _ F₂ σ₂ hS₂ ⟨rfl, hR₂⟩
    exact .nil hS₂.below (.prim hS₂.below .cons ⟨rfl, hR₂⟩)

/-! ### for-each -/

theorem forEach_call (hB : Behaves mes Computes d p P R) (hP : Maps P s ls ys s') :
    ∀ D F σ, d + 12 ≤ D → R s F σ → Scope F σ (fun _ => none) table →
    Ca mes D F σ forEach [p, listVal ls] (Gives R (.obj c_unspecified) s') := by
  induction hP with
  | nil =>
    intro D F σ hD hR hs
    obtain ⟨D, rfl⟩ := more (k := 12) (D := D) (by omega)
    refine .rest (xs := ["f", "l"]) (ps := [p, listVal []]) (vs := []) hs rfl fun ρ' hs' => .one (.ifOnly ?_)
    no hs'
    val hs'
    exact .inr ⟨⟨rfl, hB.push _ hR⟩, rfl⟩
  | @cons s s₁ s₂ x xs y ys h _ ih =>
    intro D F σ hD hR hs
    obtain ⟨D, rfl⟩ := more (k := 12) (D := D) (by omega)
    refine .rest (xs := ["f", "l"]) (ps := [p, listVal (x :: xs)]) (vs := []) hs rfl fun ρ' hs' => .one (.ifOnly ?_)
    yes hs'
    refine .or hs' ?_
    val hs'
    refine .inl ⟨by simp [nullVal, listVal, c_t, c_f], .inl ⟨?_, by simp [nullVal, listVal, c_t, c_f]⟩⟩
    have hs₁ := hs'.push [nullVal (listVal [])]
    yes hs₁
    refine .begin (.cons (.call hs₁ rfl ?_))
    args hs₁
    refine .of hB h (hB.push _ (hB.push _ hR)) (by omega) fun F₁ σ₁ hS hR₁ => .one (.call (hs₁.step hS) rfl ?_)
    args hs₁.step hS
    exact ih _ _ _ (by omega) hR₁ (hs₁.step hS).globals

theorem forEach_call2 (hB : Behaves mes Computes d p P R) (hP : Maps2 P s ls ms ys s') :
    ∀ D F σ, d + 12 ≤ D → R s F σ → Scope F σ (fun _ => none) table →
    Ca mes D F σ forEach [p, listVal ls, listVal ms] (Gives R (.obj c_unspecified) s') := by
  induction hP with
  | @nil1 s ys =>
    intro D F σ hD hR hs
    obtain ⟨D, rfl⟩ := more (k := 12) (D := D) (by omega)
    refine .rest (xs := ["f", "l"]) (ps := [p, listVal []]) (vs := [listVal ys]) hs rfl fun ρ' hs' => .one (.ifOnly ?_)
    no hs'
    val hs'
    exact .inr ⟨⟨rfl, hB.push _ hR⟩, rfl⟩
  | @nil2 s xs =>
    intro D F σ hD hR hs
    obtain ⟨D, rfl⟩ := more (k := 12) (D := D) (by omega)
    refine .rest (xs := ["f", "l"]) (ps := [p, listVal xs]) (vs := [listVal []]) hs rfl fun ρ' hs' => .one (.ifOnly ?_)
    rcases xs with _ | ⟨x, xs⟩
    · no hs'
      val hs'
      exact .inr ⟨⟨rfl, hB.push _ hR⟩, rfl⟩
    · yes hs'
      refine .or hs' ?_
      val hs'
      refine .inr ⟨rfl, fun ρ'' hs'' => ?_⟩
      val hs''
      exact .inr ⟨⟨rfl, hB.push _ (hB.push _ hR)⟩, rfl⟩
  | @cons s s₁ s₂ x xs y ys z zs h _ ih =>
    intro D F σ hD hR hs
    obtain ⟨D, rfl⟩ := more (k := 12) (D := D) (by omega)
    refine .rest (xs := ["f", "l"]) (ps := [p, listVal (x :: xs)]) (vs := [listVal (y :: ys)]) hs rfl fun ρ' hs' => .one (.ifOnly ?_)
    yes hs'
    refine .or hs' ?_
    val hs'
    refine .inr ⟨rfl, fun ρ'' hs'' => ?_⟩
    val hs''
    refine .inl ⟨?_, by simp [pairVal, listVal, c_t, c_f]⟩
    have hs₁ := hs'.push [nullVal (listVal [listVal (y :: ys)])]
    no hs₁
    refine .ifOnly ?_
    val hs₁
    refine .inl ⟨.begin (.cons (.call hs₁ rfl (.cons ?_))), by simp [nullVal, listVal, c_t, c_f]⟩
    val hs₁
    refine .cons (.call hs₁ rfl ?_)
    args hs₁
    refine .weaken (caar_call hs₁.globals) ?_
    rintro _ _ _ _ ⟨rfl, rfl, rfl⟩
    refine .nil (hs₁.push _).below (.of hB h (hB.push _ (hB.push _ (hB.push _ hR))) (by omega) fun F₁ σ₁ hS hR₁ => ?_)
    have hs₂ := (hs₁.push _).step hS
    refine .one (.call hs₂ rfl (.cons ?_))
    val hs₂
    refine .cons ?_
    val hs₂
    refine .cons (.call hs₂ rfl ?_)
    args hs₂
    refine .weaken (cdar_call hs₂.globals) ?_
    rintro _ _ _ _ ⟨rfl, rfl, rfl⟩
    exact .nil (hs₂.push _).below (ih _ _ _ (by omega) (hB.push _ hR₁) (hs₂.push _).globals)

/-! ### filter-map -/

theorem filterMap_call (hB : Behaves mes Computes d p P R) (hP : FilterMaps P s ls ys s') :
    ∀ D F σ, d + 3 * ls.length + 12 ≤ D → R s F σ → Scope F σ (fun _ => none) table →
    Ca mes D F σ filterMap [p, listVal ls] (Gives R (listVal ys) s') := by
  induction hP with
  | nil =>
    intro D F σ hD hR hs
    obtain ⟨D, rfl⟩ := more (k := 12) (D := D) (by omega)
    refine .rest (xs := ["f", "h"]) (ps := [p, listVal []]) (vs := []) hs rfl fun ρ' hs' => .one ?_
    yes hs'
    val hs'
    exact ⟨rfl, hB.push _ hR⟩
  | @keep s s₁ s₂ x xs y ys h hy _ ih =>
    intro D F σ hD hR hs
    simp only [List.length_cons] at hD
    obtain ⟨D, rfl⟩ := more (k := 12) (D := D) (by omega)
    refine .rest (xs := ["f", "h"]) (ps := [p, listVal (x :: xs)]) (vs := []) hs rfl fun ρ' hs' => .one ?_
    no hs'
    yes hs'
    refine .let' hs' (.cons (.call hs' rfl ?_))
    args hs'
    refine .of hB h (hB.push _ hR) (by omega) fun F₁ σ₁ hS hR₁ => .nil hS.below ⟨rfl, fun ρ₁ hs₁ => ?_⟩
    have hs₁' := (hs'.step hS).push [y]
    refine .one (.ite ?_)
    val hs₁
    refine .inl ⟨.call hs₁ rfl (.cons ?_), hy⟩
    val hs₁
    refine .cons (.call hs₁ rfl ?_)
    args hs₁
    refine .weaken (ih _ _ _ (by omega) (hB.push _ hR₁) hs₁.globals) ?_
    rintro _ F₂ σ₂ hS₂ ⟨rfl, hR₂⟩
    exact .nil hS₂.below (.prim hS₂.below .cons ⟨rfl, hR₂⟩)
  | @drop s s₁ s₂ x xs ys h _ ih =>
    intro D F σ hD hR hs
    simp only [List.length_cons] at hD
    obtain ⟨D, rfl⟩ := more (k := 12) (D := D) (by omega)
    refine .rest (xs := ["f", "h"]) (ps := [p, listVal (x :: xs)]) (vs := []) hs rfl fun ρ' hs' => .one ?_
    no hs'
    yes hs'
    refine .let' hs' (.cons (.call hs' rfl ?_))
    args hs'
    refine .of hB h (hB.push _ hR) (by omega) fun F₁ σ₁ hS hR₁ => .nil hS.below ⟨rfl, fun ρ₁ hs₁ => ?_⟩
    refine .one ?_
    no hs₁
    refine .call hs₁ rfl ?_
    args hs₁
    exact ih _ _ _ (by omega) (hB.push _ hR₁) hs₁.globals

/-! ### member, delete-duplicates -/

/-- What `member` gives. -/
def memberVal : Option (List Value) → Value
  | none => .obj c_f
  | some zs => listVal zs

theorem member3_call {x : Value} {o : Option (List Value)} (hB : Behaves mes Computes d p P R) (hP : MembersBy P x s ls o s') :
    ∀ D F σ, d + 8 ≤ D → R s F σ → Scope F σ (fun _ => none) table →
    Ca mes D F σ member3 [x, listVal ls, p] (Gives R (memberVal o) s') := by
  induction hP with
  | nil =>
    intro D F σ hD hR hs
    obtain ⟨D, rfl⟩ := more (k := 8) (D := D) (by omega)
    refine .proc (xs := ["x", "lst", "eq"]) hs rfl fun ρ' hs' => .one ?_
    yes hs'
    val hs'
    exact ⟨rfl, hB.push _ hR⟩
  | @here s s₁ z zs y h hy =>
    intro D F σ hD hR hs
    obtain ⟨D, rfl⟩ := more (k := 8) (D := D) (by omega)
    refine .proc (xs := ["x", "lst", "eq"]) hs rfl fun ρ' hs' => .one ?_
    no hs'
    refine .ite (.call hs' rfl ?_)
    args hs'
    refine .of hB h (hB.push _ hR) (by omega) fun F₁ σ₁ hS hR₁ => .inl ⟨?_, hy⟩
    val hs'.step hS
    exact ⟨rfl, hR₁⟩
  | @next s s₁ s₂ z zs o h _ ih =>
    intro D F σ hD hR hs
    obtain ⟨D, rfl⟩ := more (k := 8) (D := D) (by omega)
    refine .proc (xs := ["x", "lst", "eq"]) hs rfl fun ρ' hs' => .one ?_
    no hs'
    refine .ite (.call hs' rfl ?_)
    args hs'
    refine .of hB h (hB.push _ hR) (by omega) fun F₁ σ₁ hS hR₁ => .inr ⟨.call (hs'.step hS) rfl ?_, rfl⟩
    args hs'.step hS
    exact ih _ _ _ (by omega) hR₁ (hs'.step hS).globals

theorem member_call {x : Value} {o : Option (List Value)} (hB : Behaves mes Computes d p P R) (hP : MembersBy P x s ls o s') (hR : R s F σ)
    (hs : Scope F σ (fun _ => none) table) (hd : d + 8 ≤ d') : Ca mes d' F σ member [x, listVal ls, p] (Gives R (memberVal o) s') := by
  obtain ⟨D, rfl⟩ := more (k := 8) (D := d') (by omega)
  refine .rest (xs := ["x", "lst"]) (ps := [x, listVal ls]) (vs := [p]) hs rfl fun ρ' hs' => .one ?_
  no hs'
  refine .call hs' rfl ?_
  args hs'
  exact member3_call hB hP _ _ _ hd (hB.push _ hR) hs'.globals

def deleteBody : List Expr :=
  [.ite (call "null?" [v "lst"]) nil'
    (.ite (.ite (v "equal") (call "member" [call "car" [v "lst"], call "cdr" [v "lst"], v "equal"])
        (call "member" [call "car" [v "lst"], call "cdr" [v "lst"]]))
      (call "loop" [call "cdr" [v "lst"]])
      (call "cons" [call "car" [v "lst"], call "loop" [call "cdr" [v "lst"]]]))]

theorem delete_loop (hB : Behaves mes Computes d p P R) (hp : p ≠ .obj c_f) (hP : DeletesBy P s ls ys s') :
    ∀ D F σ ρ l q, d + 3 * ls.length + 12 ≤ D → R s F σ →
    Scope F σ ρ (("loop", loopClo ["lst"] deleteBody ρ) :: ("equal", p) :: ("lst", l) :: ("equal", q) :: table) →
    Ca mes D F σ (loopClo ["lst"] deleteBody ρ) [listVal ls] (Gives R (listVal ys) s') := by
  induction hP with
  | nil =>
    intro D F σ ρ l q hD hR hs
    obtain ⟨D, rfl⟩ := more (k := 12) (D := D) (by omega)
    refine .proc hs rfl fun ρ' hs' => .one ?_
    yes hs'
    val hs'
    exact ⟨rfl, hB.push _ hR⟩
  | @drop s s₁ s₂ x xs ys zs h _ ih =>
    intro D F σ ρ l q hD hR hs
    simp only [List.length_cons] at hD
    obtain ⟨D, rfl⟩ := more (k := 15) (D := D) (by omega)
    refine .proc hs rfl fun ρ' hs' => .one ?_
    no hs'
    refine .ite (.ite ?_)
    val hs'
    refine .inl ⟨.call hs' rfl ?_, hp⟩
    args hs'
    refine .weaken (member_call hB h (hB.push _ hR) hs'.globals (by omega)) ?_
    rintro _ F₁ σ₁ hS ⟨rfl, hR₁⟩
    refine .inl ⟨.call (hs'.step hS) rfl ?_, ?_⟩
    · args hs'.step hS
      exact ih _ _ _ _ _ _ (by omega) hR₁ ((hs.push _).step hS)
    · cases zs <;> simp [memberVal, listVal, c_nil, c_f]
  | @keep s s₁ s₂ x xs ys h _ ih =>
    intro D F σ ρ l q hD hR hs
    simp only [List.length_cons] at hD
    obtain ⟨D, rfl⟩ := more (k := 15) (D := D) (by omega)
    refine .proc hs rfl fun ρ' hs' => .one ?_
    no hs'
    refine .ite (.ite ?_)
    val hs'
    refine .inl ⟨.call hs' rfl ?_, hp⟩
    args hs'
    refine .weaken (member_call hB h (hB.push _ hR) hs'.globals (by omega)) ?_
    rintro _ F₁ σ₁ hS ⟨rfl, hR₁⟩
    refine .inr ⟨.call (hs'.step hS) rfl (.cons ?_), rfl⟩
    val hs'.step hS
    refine .cons (.call (hs'.step hS) rfl ?_)
    args hs'.step hS
    refine .weaken (ih _ _ _ _ _ _ (by omega) hR₁ ((hs.push _).step hS)) ?_
    rintro _ F₂ σ₂ hS₂ ⟨rfl, hR₂⟩
    exact .nil hS₂.below (.prim hS₂.below .cons ⟨rfl, hR₂⟩)

theorem deleteDuplicates_call (hB : Behaves mes Computes d p P R) (hp : p ≠ .obj c_f) (hP : DeletesBy P s ls ys s') (hR : R s F σ)
    (hs : Scope F σ (fun _ => none) table) (hd : d + 3 * ls.length + 12 ≤ d') :
    Ca mes d' F σ deleteDuplicates [listVal ls, p] (Gives R (listVal ys) s') := by
  obtain ⟨D, rfl⟩ := more (k := 12) (D := d') (by omega)
  refine .rest (xs := ["lst"]) (ps := [listVal ls]) (vs := [p]) hs rfl fun ρ' hs' => .one (.let' hs' (.cons ?_))
  yes hs'
  val hs'
  refine .nil hs'.below ⟨rfl, fun ρ'' hs'' => .one (.loop hs'' fun ρ₁ hs₁ => ?_)⟩
  args hs₁
  exact fun _ => delete_loop hB hp hP _ _ _ _ _ _ hd (hB.push _ (hB.push _ (hB.push _ hR))) hs₁

/-! ### take-while -/

theorem takeWhile_call (hB : Behaves mes Computes d p P R) (hP : TakesWhile P s ls ys s') :
    ∀ D F σ, d + 3 * ls.length + 12 ≤ D → R s F σ → Scope F σ (fun _ => none) table →
    Ca mes D F σ takeWhile [p, listVal ls] (Gives R (listVal ys) s') := by
  induction hP with
  | nil =>
    intro D F σ hD hR hs
    obtain ⟨D, rfl⟩ := more (k := 12) (D := D) (by omega)
    refine .proc (xs := ["pred", "lst"]) hs rfl fun ρ' hs' => .one (.ite (.or hs' ?_))
    val hs'
    refine .inl ⟨by simp [nullVal, listVal, c_t, c_f], .inl ⟨?_, by simp [nullVal, listVal, c_t, c_f]⟩⟩
    val hs'.push _
    exact ⟨rfl, hB.push _ (hB.push _ hR)⟩
  | @keep s s₁ s₂ x xs y ys h hy _ ih =>
    intro D F σ hD hR hs
    simp only [List.length_cons] at hD
    obtain ⟨D, rfl⟩ := more (k := 12) (D := D) (by omega)
    refine .proc (xs := ["pred", "lst"]) hs rfl fun ρ' hs' => .one (.ite (.or hs' ?_))
    val hs'
    refine .inr ⟨rfl, fun ρ'' hs'' => .call hs'' rfl (.cons (.call hs'' rfl ?_))⟩
    args hs''
    refine .of hB h (hB.push _ (hB.push _ hR)) (by omega) fun F₁ σ₁ hS hR₁ => .nil hS.below ?_
    refine .proc (xs := ["x"]) (hs''.step hS).globals rfl fun ρ₁ hs₁ => .one (.ite ?_)
    val hs₁
    refine .inl ⟨?_, hy⟩
    val hs₁
    have hs₂ := ((hs'.push [nullVal (listVal (x :: xs))]).step hS).push [y]
    refine .inr ⟨.call hs₂ rfl (.cons ?_), rfl⟩
    val hs₂
    refine .cons (.call hs₂ rfl ?_)
    args hs₂
    refine .weaken (ih _ _ _ (by omega) (hB.push _ hR₁) hs₂.globals) ?_
    rintro _ F₂ σ₂ hS₂ ⟨rfl, hR₂⟩
    exact .nil hS₂.below (.prim hS₂.below .cons ⟨rfl, hR₂⟩)
  | @stop s s₁ x xs h =>
    intro D F σ hD hR hs
    simp only [List.length_cons] at hD
    obtain ⟨D, rfl⟩ := more (k := 12) (D := D) (by omega)
    refine .proc (xs := ["pred", "lst"]) hs rfl fun ρ' hs' => .one (.ite (.or hs' ?_))
    val hs'
    refine .inr ⟨rfl, fun ρ'' hs'' => .call hs'' rfl (.cons (.call hs'' rfl ?_))⟩
    args hs''
    refine .of hB h (hB.push _ (hB.push _ hR)) (by omega) fun F₁ σ₁ hS hR₁ => .nil hS.below ?_
    refine .proc (xs := ["x"]) (hs''.step hS).globals rfl fun ρ₁ hs₁ => .one ?_
    no hs₁
    val hs₁
    refine .inl ⟨?_, by simp [Literal.val, c_t, c_f]⟩
    val hs₁
    exact ⟨rfl, hB.push _ hR₁⟩

/-! ### any1, every1, list-index -/

def anyBody : List Expr :=
  [cond [(call "null?" [v "ls"], [no]),
      (call "null?" [call "cdr" [v "ls"]], [call "pred" [call "car" [v "ls"]]]),
      (v "else", [or' [call "pred" [call "car" [v "ls"]], call "lp" [call "cdr" [v "ls"]]]])]]

theorem any_loop (hB : Behaves mes Computes d p P R) (hP : Anys P s ls w s') :
    ∀ D F σ ρ l, d + 12 ≤ D → R s F σ → Scope F σ ρ (("lp", loopClo ["ls"] anyBody ρ) :: ("pred", p) :: ("ls", l) :: table) →
    Ca mes D F σ (loopClo ["ls"] anyBody ρ) [listVal ls] (Gives R w s') := by
  induction hP with
  | nil =>
    intro D F σ ρ l hD hR hs
    obtain ⟨D, rfl⟩ := more (k := 12) (D := D) (by omega)
    refine .proc hs rfl fun ρ' hs' => .one (.cond hs' ?_)
    val hs'
    refine fun ρ₁ hs₁ => .inl ⟨by simp [nullVal, listVal, c_t, c_f], .one ?_⟩
    val hs₁
    exact ⟨rfl, hB.push _ (hB.push _ hR)⟩
  | @here s s₁ x xs y h hy =>
    intro D F σ ρ l hD hR hs
    obtain ⟨D, rfl⟩ := more (k := 12) (D := D) (by omega)
    refine .proc hs rfl fun ρ' hs' => .one (.cond hs' ?_)
    val hs'
    refine fun ρ₁ hs₁ => .inr ⟨rfl, .cond hs₁ ?_⟩
    val hs₁
    intro ρ₂ hs₂
    rcases xs with _ | ⟨x', xs⟩
    · refine .inl ⟨by simp [nullVal, listVal, c_t, c_f], .one (.call hs₂ rfl ?_)⟩
      args hs₂
      exact .of hB h (hB.push _ (hB.push _ (hB.push _ hR))) (by omega) fun F₁ σ₁ hS hR₁ => ⟨rfl, hR₁⟩
    · refine .inr ⟨rfl, .condLast hs₂ ?_⟩
      val hs₂
      refine ⟨by simp [c_t, c_f], fun ρ₃ hs₃ => .one (.or hs₃ (.call hs₃ rfl ?_))⟩
      args hs₃
      exact .of hB h (hB.push _ (hB.push _ (hB.push _ (hB.push _ hR)))) (by omega) fun F₁ σ₁ hS hR₁ => .inl ⟨hy, rfl, hB.push _ hR₁⟩
  | @next s s₁ s₂ x xs z h hA ih =>
    intro D F σ ρ l hD hR hs
    obtain ⟨D, rfl⟩ := more (k := 12) (D := D) (by omega)
    refine .proc hs rfl fun ρ' hs' => .one (.cond hs' ?_)
    val hs'
    refine fun ρ₁ hs₁ => .inr ⟨rfl, .cond hs₁ ?_⟩
    val hs₁
    intro ρ₂ hs₂
    rcases xs with _ | ⟨x', xs⟩
    · refine .inl ⟨by simp [nullVal, listVal, c_t, c_f], .one (.call hs₂ rfl ?_)⟩
      args hs₂
      cases hA
      exact .of hB h (hB.push _ (hB.push _ (hB.push _ hR))) (by omega) fun F₁ σ₁ hS hR₁ => ⟨rfl, hR₁⟩
    · refine .inr ⟨rfl, .condLast hs₂ ?_⟩
      val hs₂
      refine ⟨by simp [c_t, c_f], fun ρ₃ hs₃ => .one (.or hs₃ (.call hs₃ rfl ?_))⟩
      args hs₃
      refine .of hB h (hB.push _ (hB.push _ (hB.push _ (hB.push _ hR)))) (by omega) fun F₁ σ₁ hS hR₁ => .inr ⟨rfl, fun ρ₄ hs₄ => .call hs₄ rfl ?_⟩
      args hs₄
      exact ih _ _ _ _ _ (by omega) (hB.push _ hR₁) ((((((hs.push _).push _).push _).push _).step hS).push _)

theorem any1_call (hB : Behaves mes Computes d p P R) (hP : Anys P s ls w s') (hR : R s F σ) (hs : Scope F σ (fun _ => none) table)
    (hd : d + 12 ≤ d') : Ca mes d' F σ any1 [p, listVal ls] (Gives R w s') := by
  obtain ⟨D, rfl⟩ := more (k := 12) (D := d') (by omega)
  refine .proc (xs := ["pred", "ls"]) hs rfl fun ρ' hs' => .one (.loop hs' fun ρ'' hs'' => ?_)
  args hs''
  exact fun _ => any_loop hB hP _ _ _ _ _ hd (hB.push _ (hB.push _ hR)) hs''

def everyBody : List Expr :=
  [cond [(call "null?" [v "ls"], [yes]),
      (call "null?" [call "cdr" [v "ls"]], [call "pred" [call "car" [v "ls"]]]),
      (v "else", [and' [call "pred" [call "car" [v "ls"]], call "lp" [call "cdr" [v "ls"]]]])]]

theorem every_loop (hB : Behaves mes Computes d p P R) (hP : Everys P s ls w s') :
    ∀ D F σ ρ l, d + 12 ≤ D → R s F σ → Scope F σ ρ (("lp", loopClo ["ls"] everyBody ρ) :: ("pred", p) :: ("ls", l) :: table) →
    Ca mes D F σ (loopClo ["ls"] everyBody ρ) [listVal ls] (Gives R w s') := by
  induction hP with
  | nil =>
    intro D F σ ρ l hD hR hs
    obtain ⟨D, rfl⟩ := more (k := 12) (D := D) (by omega)
    refine .proc hs rfl fun ρ' hs' => .one (.cond hs' ?_)
    val hs'
    refine fun ρ₁ hs₁ => .inl ⟨by simp [nullVal, listVal, c_t, c_f], .one ?_⟩
    val hs₁
    exact ⟨rfl, hB.push _ (hB.push _ hR)⟩
  | @last s s₁ x y h =>
    intro D F σ ρ l hD hR hs
    obtain ⟨D, rfl⟩ := more (k := 12) (D := D) (by omega)
    refine .proc hs rfl fun ρ' hs' => .one (.cond hs' ?_)
    val hs'
    refine fun ρ₁ hs₁ => .inr ⟨rfl, .cond hs₁ ?_⟩
    val hs₁
    intro ρ₂ hs₂
    refine .inl ⟨by simp [nullVal, listVal, c_t, c_f], .one (.call hs₂ rfl ?_)⟩
    args hs₂
    exact .of hB h (hB.push _ (hB.push _ (hB.push _ hR))) (by omega) fun F₁ σ₁ hS hR₁ => ⟨rfl, hR₁⟩
  | @stop s s₁ x xs h =>
    intro D F σ ρ l hD hR hs
    obtain ⟨D, rfl⟩ := more (k := 12) (D := D) (by omega)
    refine .proc hs rfl fun ρ' hs' => .one (.cond hs' ?_)
    val hs'
    refine fun ρ₁ hs₁ => .inr ⟨rfl, .cond hs₁ ?_⟩
    val hs₁
    intro ρ₂ hs₂
    rcases xs with _ | ⟨x', xs⟩
    · refine .inl ⟨by simp [nullVal, listVal, c_t, c_f], .one (.call hs₂ rfl ?_)⟩
      args hs₂
      exact .of hB h (hB.push _ (hB.push _ (hB.push _ hR))) (by omega) fun F₁ σ₁ hS hR₁ => ⟨rfl, hR₁⟩
    · refine .inr ⟨rfl, .condLast hs₂ ?_⟩
      val hs₂
      refine ⟨by simp [c_t, c_f], fun ρ₃ hs₃ => .one (.ite (.call hs₃ rfl ?_))⟩
      args hs₃
      refine .of hB h (hB.push _ (hB.push _ (hB.push _ (hB.push _ hR)))) (by omega) fun F₁ σ₁ hS hR₁ => .inr ⟨?_, rfl⟩
      val hs₃.step hS
      exact ⟨rfl, hR₁⟩
  | @next s s₁ s₂ x y z xs w h hy _ ih =>
    intro D F σ ρ l hD hR hs
    obtain ⟨D, rfl⟩ := more (k := 12) (D := D) (by omega)
    refine .proc hs rfl fun ρ' hs' => .one (.cond hs' ?_)
    val hs'
    refine fun ρ₁ hs₁ => .inr ⟨rfl, .cond hs₁ ?_⟩
    val hs₁
    intro ρ₂ hs₂
    refine .inr ⟨rfl, .condLast hs₂ ?_⟩
    val hs₂
    refine ⟨by simp [c_t, c_f], fun ρ₃ hs₃ => .one (.ite (.call hs₃ rfl ?_))⟩
    args hs₃
    refine .of hB h (hB.push _ (hB.push _ (hB.push _ (hB.push _ hR)))) (by omega) fun F₁ σ₁ hS hR₁ => .inl ⟨.call (hs₃.step hS) rfl ?_, hy⟩
    args hs₃.step hS
    exact ih _ _ _ _ _ (by omega) hR₁ (((((hs.push _).push _).push _).push _).step hS)

theorem every1_call (hB : Behaves mes Computes d p P R) (hP : Everys P s ls w s') (hR : R s F σ) (hs : Scope F σ (fun _ => none) table)
    (hd : d + 12 ≤ d') : Ca mes d' F σ every1 [p, listVal ls] (Gives R w s') := by
  obtain ⟨D, rfl⟩ := more (k := 12) (D := d') (by omega)
  refine .proc (xs := ["pred", "ls"]) hs rfl fun ρ' hs' => .one (.loop hs' fun ρ'' hs'' => ?_)
  args hs''
  exact fun _ => every_loop hB hP _ _ _ _ _ hd (hB.push _ (hB.push _ hR)) hs''

def indexBody : List Expr :=
  [.ite (call "null?" [v "l"]) no (.ite (call "pred" [call "car" [v "l"]]) (v "i") (call "lp" [call "cdr" [v "l"], call "+" [v "i", int 1]]))]

/-- What `list-index` gives. -/
def indexVal (n : Nat) : Option Nat → Value
  | none => .obj c_f
  | some i => .int (n + i : Nat)

theorem index_loop {o : Option Nat} (hB : Behaves mes Computes d p P R) (hP : Indexes P s ls o s') :
    ∀ D F σ ρ l r n, d + 9 ≤ D → ((n + ls.length : Nat) : Int) < 2 ^ 63 → R s F σ →
    Scope F σ ρ (("lp", loopClo ["l", "i"] indexBody ρ) :: ("pred", p) :: ("clist1", l) :: ("rest", r) :: table) →
    Ca mes D F σ (loopClo ["l", "i"] indexBody ρ) [listVal ls, .int (n : Nat)] (Gives R (indexVal n o) s') := by
  induction hP with
  | nil =>
    intro D F σ ρ l r n hD hn hR hs
    obtain ⟨D, rfl⟩ := more (k := 9) (D := D) (by omega)
    refine .proc hs rfl fun ρ' hs' => .one ?_
    yes hs'
    val hs'
    exact ⟨rfl, hB.push _ hR⟩
  | @here s s₁ x xs y h hy =>
    intro D F σ ρ l r n hD hn hR hs
    obtain ⟨D, rfl⟩ := more (k := 9) (D := D) (by omega)
    refine .proc hs rfl fun ρ' hs' => .one ?_
    no hs'
    refine .ite (.call hs' rfl ?_)
    args hs'
    refine .of hB h (hB.push _ hR) (by omega) fun F₁ σ₁ hS hR₁ => .inl ⟨?_, hy⟩
    val hs'.step hS
    exact ⟨rfl, hR₁⟩
  | @next s s₁ s₂ x xs i h _ ih =>
    intro D F σ ρ l r n hD hn hR hs
    simp only [List.length_cons] at hn
    obtain ⟨D, rfl⟩ := more (k := 9) (D := D) (by omega)
    refine .proc hs rfl fun ρ' hs' => .one ?_
    no hs'
    refine .ite (.call hs' rfl ?_)
    args hs'
    refine .of hB h (hB.push _ hR) (by omega) fun F₁ σ₁ hS hR₁ => .inr ⟨.call (hs'.step hS) rfl (.cons ?_), rfl⟩
    val hs'.step hS
    refine .cons (.val (w := .int (n + 1 : Int)) (eval_plus (hs'.step hS) rfl (by unfold Word; omega) (by unfold Word; omega) ?_ ?_) hS.below (.nil hS.below ?_))
    · simple (hs'.step hS)
    · simple (hs'.step hS)
    · refine .weaken (ih _ _ _ _ _ _ (n + 1) (by omega) (by omega) hR₁ ((hs.push _).step hS)) ?_
      rintro _ F₂ σ₂ _ ⟨rfl, hR₂⟩
      refine ⟨?_, hR₂⟩
      cases i with
      | none => rfl
      | some i => simp only [indexVal, Option.map_some]; congr 2; omega

theorem listIndex_call {o : Option Nat} (hB : Behaves mes Computes d p P R) (hP : Indexes P s ls o s') (hl : (ls.length : Int) < 2 ^ 63) (hR : R s F σ)
    (hs : Scope F σ (fun _ => none) table) (hd : d + 9 ≤ d') : Ca mes d' F σ listIndex [p, listVal ls] (Gives R (indexVal 0 o) s') := by
  obtain ⟨D, rfl⟩ := more (k := 9) (D := d') (by omega)
  refine .rest (xs := ["pred", "clist1"]) (ps := [p, listVal ls]) (vs := []) hs rfl fun ρ' hs' => .one ?_
  yes hs'
  refine .loop hs' fun ρ'' hs'' => ?_
  args hs''
  exact fun _ => index_loop hB hP _ _ _ _ _ _ 0 hd (by omega) (hB.push _ (hB.push _ hR)) hs''

/-! ### Positions -/

/-- Counting down. -/
theorem eval_pred {e : Expr} {n : Nat} {E : List (String × Value)} (hs : Scope F σ ρ E) (hf : E.lookup "-" = some (.prim (-1) 199)) (hn : ((n + 1 : Nat) : Int) < 2 ^ 63)
    (he : Eval mes Computes (d + 1) ρ σ e (.int (n + 1 : Nat)) σ) : Eval mes Computes (d + 3) ρ σ (call "-" [e, int 1]) (.int n) σ := by
  have := eval_minus (n := (n + 1 : Nat)) (m := 1) hs hf (by unfold Word; omega) (by unfold Word; omega) he (.const (.int 1))
  rw [show ((n + 1 : Nat) : Int) - 1 = n by omega] at this
  exact this

theorem eval_zero {n : Nat} {x : String} {E : List (String × Value)} (hs : Scope F σ ρ E) (hf : E.lookup "=" = some (.prim (-1) 198)) (hx : E.lookup x = some (.int (n + 1 : Nat))) :
    Eval mes Computes (d + 3) ρ σ (call "=" [int 0, v x]) (.obj c_f) σ := by
  have := eval_eq (n := 0) (m := (n + 1 : Nat)) (mes := mes) (d := d) hs hf (.const (.int 0)) (hs.var hx)
  rw [if_neg (by omega)] at this
  exact this

def makeBody : List Expr := [.ite (call "=" [int 0, v "n"]) nil' (call "cons" [v "fill", call "loop" [call "-" [v "n", int 1]]])]

theorem make_loop {n : Nat} : ∀ D F σ ρ m r, 3 * n + 9 ≤ D → (n : Int) < 2 ^ 63 →
    Scope F σ ρ (("loop", loopClo ["n"] makeBody ρ) :: ("fill", a) :: ("n", m) :: ("x", r) :: table) →
    Ca mes D F σ (loopClo ["n"] makeBody ρ) [.int (n : Nat)] (fun w _ _ => w = listVal (List.replicate n a)) := by
  induction n with
  | zero =>
    intro D F σ ρ m r hD hn hs
    obtain ⟨D, rfl⟩ := more (k := 9) (D := D) (by omega)
    refine .proc hs rfl fun ρ' hs' => .one ?_
    yes hs'
    val hs'
    rfl
  | succ n ih =>
    intro D F σ ρ m r hD hn hs
    obtain ⟨D, rfl⟩ := more (k := 12) (D := D) (by omega)
    refine .proc hs rfl fun ρ' hs' => .one (.iteF (eval_zero hs' rfl rfl) rfl (.call hs' rfl (.cons ?_)))
    val hs'
    refine .cons (.call hs' rfl (.cons (.val (eval_pred hs' rfl hn (hs'.var rfl)) hs'.below (.nil hs'.below ?_))))
    refine .weaken (ih _ _ _ _ _ _ (by omega) (by omega) (hs.push _)) ?_
    rintro _ F₁ σ₁ hS rfl
    exact .nil hS.below (.prim hS.below .cons rfl)

theorem makeList_call {n : Nat} (hs : Scope F σ (fun _ => none) table) (hn : (n : Int) < 2 ^ 63) (hd : 3 * n + 10 ≤ d') :
    Ca mes d' F σ makeList [.int (n : Nat), a] (fun w _ _ => w = listVal (List.replicate n a)) := by
  obtain ⟨D, rfl⟩ := more (k := 10) (D := d') (by omega)
  refine .rest (xs := ["n"]) (ps := [.int (n : Nat)]) (vs := [a]) hs rfl fun ρ' hs' => .one (.let' hs' (.cons ?_))
  yes hs'
  val hs'
  refine .nil hs'.below ⟨rfl, fun ρ'' hs'' => .one (.loop hs'' fun ρ₁ hs₁ => ?_)⟩
  args hs₁
  exact fun _ => make_loop _ _ _ _ _ _ (by omega) hn hs₁

def refBody : List Expr :=
  [.ite (call "=" [int 0, v "k"]) (call "car" [v "lst"]) (call "loop" [call "cdr" [v "lst"], call "-" [v "k", int 1]])]

theorem ref_loop {n : Nat} (hl : ls[n]? = some a) : ∀ D F σ ρ m l, 9 ≤ D → (n : Int) < 2 ^ 63 →
    Scope F σ ρ (("loop", loopClo ["lst", "k"] refBody ρ) :: ("lst", l) :: ("k", m) :: table) →
    Ca mes D F σ (loopClo ["lst", "k"] refBody ρ) [listVal ls, .int (n : Nat)] (fun w _ _ => w = a) := by
  induction n generalizing ls with
  | zero =>
    intro D F σ ρ m l hD hn hs
    obtain ⟨D, rfl⟩ := more (k := 9) (D := D) (by omega)
    rcases ls with _ | ⟨x, xs⟩
    · simp at hl
    refine .proc hs rfl fun ρ' hs' => .one ?_
    yes hs'
    val hs'
    simpa using hl
  | succ n ih =>
    intro D F σ ρ m l hD hn hs
    obtain ⟨D, rfl⟩ := more (k := 9) (D := D) (by omega)
    rcases ls with _ | ⟨x, xs⟩
    · simp at hl
    refine .proc hs rfl fun ρ' hs' => .one (.iteF (eval_zero hs' rfl rfl) rfl (.call hs' rfl (.cons ?_)))
    val hs'
    refine .cons (.val (eval_pred hs' rfl hn (hs'.var rfl)) hs'.below (.nil hs'.below ?_))
    exact ih (by simpa using hl) _ _ _ _ _ _ (by omega) (by omega) (hs.push _)

theorem listRef_call {n : Nat} (hl : ls[n]? = some a) (hs : Scope F σ (fun _ => none) table) (hn : (n : Int) < 2 ^ 63) (hd : 9 ≤ d') :
    Ca mes d' F σ listRef [listVal ls, .int (n : Nat)] (fun w _ _ => w = a) := by
  obtain ⟨D, rfl⟩ := more (k := 9) (D := d') (by omega)
  refine .proc (xs := ["lst", "k"]) hs rfl fun ρ' hs' => .one (.loop hs' fun ρ'' hs'' => ?_)
  args hs''
  exact fun _ => ref_loop hl _ _ _ _ _ _ hd hn hs''

theorem listHead_call {n : Nat} (hl : n ≤ ls.length) : ∀ D F σ, 3 * n + 9 ≤ D → (n : Int) < 2 ^ 63 → Scope F σ (fun _ => none) table →
    Ca mes D F σ listHead [listVal ls, .int (n : Nat)] (fun w _ _ => w = listVal (ls.take n)) := by
  induction n generalizing ls with
  | zero =>
    intro D F σ hD hn hs
    obtain ⟨D, rfl⟩ := more (k := 9) (D := D) (by omega)
    refine .proc (xs := ["x", "n"]) hs rfl fun ρ' hs' => .one ?_
    yes hs'
    val hs'
    rfl
  | succ n ih =>
    intro D F σ hD hn hs
    obtain ⟨D, rfl⟩ := more (k := 12) (D := D) (by omega)
    rcases ls with _ | ⟨x, xs⟩
    · simp at hl
    refine .proc (xs := ["x", "n"]) hs rfl fun ρ' hs' => .one (.iteF (eval_zero hs' rfl rfl) rfl (.call hs' rfl (.cons ?_)))
    val hs'
    refine .cons (.call hs' rfl (.cons ?_))
    val hs'
    refine .cons (.val (eval_pred hs' rfl hn (hs'.var rfl)) hs'.below (.nil hs'.below ?_))
    refine .weaken (ih (ls := xs) (by simpa using hl) _ _ _ (by omega) (by omega) hs'.globals) ?_
    rintro _ F₁ σ₁ hS rfl
    exact .nil hS.below (.prim hS.below .cons rfl)

theorem listTail_call {n : Nat} (hl : n ≤ ls.length) : ∀ D F σ, 9 ≤ D → (n : Int) < 2 ^ 63 → Scope F σ (fun _ => none) table →
    Ca mes D F σ listTail [listVal ls, .int (n : Nat)] (fun w _ _ => w = listVal (ls.drop n)) := by
  induction n generalizing ls with
  | zero =>
    intro D F σ hD hn hs
    obtain ⟨D, rfl⟩ := more (k := 9) (D := D) (by omega)
    refine .proc (xs := ["x", "n"]) hs rfl fun ρ' hs' => .one ?_
    yes hs'
    val hs'
    rfl
  | succ n ih =>
    intro D F σ hD hn hs
    obtain ⟨D, rfl⟩ := more (k := 9) (D := D) (by omega)
    rcases ls with _ | ⟨x, xs⟩
    · simp at hl
    refine .proc (xs := ["x", "n"]) hs rfl fun ρ' hs' => .one (.iteF (eval_zero hs' rfl rfl) rfl (.call hs' rfl (.cons ?_)))
    val hs'
    refine .cons (.val (eval_pred hs' rfl hn (hs'.var rfl)) hs'.below (.nil hs'.below ?_))
    exact ih (ls := xs) (by simpa using hl) _ _ _ (by omega) (by omega) hs'.globals

end Mes.Lib
