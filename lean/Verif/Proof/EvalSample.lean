import Verif.Spec.Builtins
import Verif.Spec.Sample
import Verif.Proof.EvalEnv
import Verif.Spec.Machine
/-
A concrete memory for the examples about the evaluator: a module whose table of global variables has `=`, `-`, `+` and `x`, and
the symbols `f`, `n` and `a`.  The code of an example comes behind it.
-/
namespace Mes.Spec

/-- The cell of a symbol, and an unused cell; the bytes of the name are at the address `a`. -/
def symCells (a : Int) : List Cell := [{ tag := .symbol, car := 1, cdr := a }, num 0]

/-- The bytes of a name, in three cells. -/
def nameCells (b : Byte) : List Cell := [{ tag := .bytes, car := 2, cdr := 0, bytes := [b, 0] }, num 0, num 0]

def refCell (a : Int) : Cell := { tag := .ref, car := a, cdr := 0 }

/-- A builtin with any number of arguments at the address `a`. -/
def builtinCells (a id : Int) : List Cell :=
  [{ tag := .struct, car := 6, cdr := a + 1 }, refCell c_f, refCell c_f, refCell c_symbol_builtin, refCell c_f,
    num (-1), num id]

/-- The addresses of the symbols. -/
abbrev y_f : Int := 116
abbrev y_n : Int := 118
abbrev y_a : Int := 120
abbrev y_eq : Int := 122
abbrev y_minus : Int := 124
abbrev y_plus : Int := 126
abbrev y_x : Int := 128

/-- The cells from 116 to 197. -/
def baseCells : List Cell :=
  symCells 177 ++ symCells 180 ++ symCells 183 ++ symCells 186 ++ symCells 189 ++ symCells 192 ++ symCells 195 ++
  builtinCells 130 198 ++ builtinCells 137 199 ++ builtinCells 144 200 ++
  [pair y_eq 130, pair y_minus 137, pair y_plus 144, pair y_x 155, num 7,
   pair 151 157, pair 152 158, pair 153 159, pair 154 c_nil,
   { tag := .vector, car := 1, cdr := 161 }, refCell 156,
   { tag := .struct, car := 5, cdr := 163 }, refCell c_f, refCell c_f, refCell c_f, num 1, refCell 160,
   { tag := .struct, car := 6, cdr := 169 }, refCell c_f, refCell c_f, refCell c_f, refCell c_f, refCell c_f, refCell 162,
   pair c_symbol_hashq_table c_f, pair 175 c_nil] ++
  nameCells 102 ++ nameCells 110 ++ nameCells 97 ++ nameCells 61 ++ nameCells 45 ++ nameCells 43 ++ nameCells 120

/-- The memory with the code `code` from address 198 on, and the expression at `c` to be evaluated; the frame on the stack
returns to C. -/
def prog (code : List Cell) (c : Int) : St :=
  { sampleN 100000 (baseCells ++ code) with
    cell := fun a =>
      if a < c_symbol_max then { tag := if a < 46 then .special else .symbol, car := if a = c_symbol_begin then 5 else 0, cdr := c_nil }
      else (sampleN 100000 (baseCells ++ code)).cell a
    limit := 200003
    symbols := c_nil
    macros := c_nil
    stackSize := 1000
    stack := fun _ => c_unspecified
    sp := 995
    r0 := 176
    r1 := c
    r3 := c_vm_eval
    m0 := 168 }

@[reducible] def progGhost : Ghost where
  name x := if x = y_f then [102] else if x = y_n then [110] else if x = y_a then [97] else if x = y_eq then [61]
    else if x = y_minus then [45] else if x = y_plus then [43] else [120]
  loc l := 151 + l
  count := 4
  chg a := a = 151 ∨ a = 152 ∨ a = 153 ∨ a = 154 ∨ a = 161

@[reducible] def progNames : Idents := ⟨fun x => c_symbol_max ≤ x, fun _ => False⟩

/-- The store of the memory. -/
def progStore : Store where
  vals := [.prim (-1) 198, .prim (-1) 199, .prim (-1) 200, .int 7]
  globals x := if x = y_eq then some 0 else if x = y_minus then some 1 else if x = y_plus then some 2 else if x = y_x then some 3 else none

end Mes.Spec

namespace Mes
open Res Spec

theorem prog_free (code : List Cell) (c : Int) : (prog code c).free = 198 + code.length := by
  simp only [prog, sampleN]
  rw [List.length_append]
  have : baseCells.length = 82 := rfl
  rw [this]
  simp only [c_symbol_max]; omega

theorem prog_cell (code : List Cell) (c : Int) {a : Int} (h : a < 198) : (prog code c).cell a = (prog [] 0).cell a := by
  simp only [prog, sampleN]
  split
  · rfl
  · rename_i h1
    simp only [c_symbol_max] at h1 ⊢
    have e : (a - 116).toNat < baseCells.length := by show _ < 82; omega
    rw [List.append_nil, List.getD_eq_getElem?_getD, List.getD_eq_getElem?_getD, List.getElem?_append_left e]

theorem base_valid {a : Int} (h : 1 ≤ a ∧ a < 198) : (prog [] 0).Valid a := ⟨h.1, by rw [prog_free]; simp; omega⟩

instance (a : Int) : Decidable ((prog [] 0).Valid a) := by unfold St.Valid; infer_instance

theorem base_builtin : IsBuiltin (prog [] 0) progGhost.chg 130 (-1) 198 ∧
    IsBuiltin (prog [] 0) progGhost.chg 137 (-1) 199 ∧ IsBuiltin (prog [] 0) progGhost.chg 144 (-1) 200 := by
  refine ⟨⟨?_, rfl, rfl, ?_, ?_, rfl, rfl, ?_, ⟨?_, rfl, rfl⟩, ?_, ⟨?_, rfl, rfl⟩, ?_⟩,
    ⟨?_, rfl, rfl, ?_, ?_, rfl, rfl, ?_, ⟨?_, rfl, rfl⟩, ?_, ⟨?_, rfl, rfl⟩, ?_⟩,
    ⟨?_, rfl, rfl, ?_, ?_, rfl, rfl, ?_, ⟨?_, rfl, rfl⟩, ?_, ⟨?_, rfl, rfl⟩, ?_⟩⟩ <;> decide

theorem base_table : Globals (prog [] 0) progGhost 162 1 [(y_eq, 151), (y_minus, 152), (y_plus, 153), (y_x, 154)] := by
  have hf : ([(y_eq, 151), (y_minus, 152), (y_plus, 153), (y_x, 154)] : List (Int × Int)).filter
      (fun e => slot 1 (progGhost.name e.1) = 0) = [(y_eq, 151), (y_minus, 152), (y_plus, 153), (y_x, 154)] := by decide
  have fp : ∀ p, p ∈ [156, 157, 158, (159 : Int)] → FixedPair (prog [] 0) progGhost.chg p := by
    intro p hp
    simp only [List.mem_cons, List.not_mem_nil, or_false] at hp
    rcases hp with rfl | rfl | rfl | rfl <;> exact ⟨by decide, by decide, rfl, by decide⟩
  have zero : ∀ i : Nat, i < 1 → i = 0 := by omega
  refine ⟨by decide, rfl, rfl, by decide, ⟨by decide, rfl, rfl⟩, by decide, by decide, rfl, by decide, by decide, rfl, rfl, by decide, by decide, by decide,
    fun i hi => ?_, fun i hi => ?_, fun i hi => ?_, fun _ _ => id, fun i hi => ?_, ?_, ?_⟩
  · rw [zero i hi]; decide
  · rw [zero i hi]; rfl
  · rw [zero i hi]; decide
  · rw [zero i hi, hf]
    refine ⟨fun h => absurd h (by decide), fun _ => ?_⟩
    exact .cons (fp 156 (by decide)) (.cons (fp 157 (by decide)) (.cons (fp 158 (by decide)) (.cons (fp 159 (by decide)) .nil)))
  · decide
  · decide

theorem base_world (mes : Bool) : World (prog [] 0) progGhost mes progStore := by
  obtain ⟨b1, b2, b3⟩ := base_builtin
  refine ⟨by decide, ?_, rfl, rfl, ?_, ?_, ?_, ?_, ?_, ⟨by decide, rfl, by decide, by decide, by decide, rfl, by decide⟩, ⟨1, _, base_table, ?_⟩, ?_, nofun, nofun, fun _ _ => id⟩
  · intro a h1 h2
    simp only [prog, sampleN]
    rw [if_pos h2]
  · rintro a (rfl | rfl | rfl | rfl | rfl) <;> decide
  · intro l hl
    have hl : l < 4 := hl
    show 151 + (l : Int) = 151 ∨ 151 + (l : Int) = 152 ∨ 151 + (l : Int) = 153 ∨ 151 + (l : Int) = 154 ∨ 151 + (l : Int) = 161
    omega
  · intro l l' _ _ h
    have h : 151 + (l : Int) = 151 + (l' : Int) := h
    omega
  · intro l hl
    have hl : l < 4 := hl
    match l, hl with
    | 0, _ => decide
    | 1, _ => decide
    | 2, _ => decide
    | 3, _ => decide
  · intro l v h
    match l with
    | 0 => cases h; exact .prim b1
    | 1 => cases h; exact .prim b2
    | 2 => cases h; exact .prim b3
    | 3 => cases h; exact .int ⟨by decide, rfl, rfl⟩ (by decide)
    | l + 4 => simp [progStore] at h
  · intro x
    simp only [lookup, progStore]
    by_cases h1 : x = y_eq
    · subst h1; rfl
    rw [if_neg (Ne.symm h1), if_neg h1]
    by_cases h2 : x = y_minus
    · subst h2; rfl
    rw [if_neg (Ne.symm h2), if_neg h2]
    by_cases h3 : x = y_plus
    · subst h3; rfl
    rw [if_neg (Ne.symm h3), if_neg h3]
    by_cases h4 : x = y_x
    · subst h4; rfl
    rw [if_neg (Ne.symm h4), if_neg h4]
    rfl
  · intro x l h
    show l < 4
    simp only [progStore] at h
    repeat' split at h
    all_goals cases h
    all_goals decide

theorem prog_grow (code : List Cell) (c : Int) : Grow (prog [] 0) (prog code c) :=
  ⟨by rw [prog_free, prog_free]; simp; omega, fun a ha => prog_cell code c (by rw [prog_free] at ha; simpa using ha)⟩

/-- The memory holds the store, whatever code comes behind it. -/
theorem prog_world (mes : Bool) (code : List Cell) (c : Int) : World (prog code c) progGhost mes progStore :=
  (base_world mes).grow (prog_grow code c) rfl

theorem prog_scope (code : List Cell) (c : Int) : IsScope (prog code c) progGhost progNames (prog code c).r0 fun _ => none := by
  have h : IsScope (prog [] 0) progGhost progNames 176 fun _ => none := by
    refine ⟨⟨by decide, by decide, rfl, by decide⟩, by decide, rfl, nofun, by decide, by decide, fun x hx => ⟨.nil, nofun⟩, nofun⟩
  exact h.later ((prog_grow code c).later progGhost)

instance (s : St) (a : Int) : Decidable (s.Valid a) := by unfold St.Valid; infer_instance

instance (x : Int) : Decidable (Reserved x) := by unfold Reserved; infer_instance
instance (x : Int) : Decidable (SpecialForm x) := by unfold SpecialForm; infer_instance

/-- The same memory in an arena of another size. -/
def bigProg (A : Int) (code : List Cell) (c : Int) : St := { prog code c with arena := A }

theorem big_grow (A : Int) (code : List Cell) (c : Int) : Grow (prog code c) (bigProg A code c) := ⟨Int.le_refl _, fun _ _ => rfl⟩

theorem big_ready (code : List Cell) (c : Int) (k : Nat) : Ready (bigProg (198 + code.length + k + 1000) code c) k 100 := by
  have hs : (bigProg (198 + code.length + k + 1000) code c).safety = 100 := rfl
  refine ⟨?_, by rw [hs]; decide, ?_, by show 5 * (100 : Int) ≤ 995; decide, by show (995 : Int) + 5 ≤ 1000; decide⟩
  · show _ ≤ (prog code c).free
    rw [prog_free]; simp only [c_symbol_max]; omega
  · show (prog code c).free + k + _ ≤ 198 + (code.length : Int) + k + 1000
    rw [prog_free, hs]; omega

theorem prog_name (code : List Cell) (c : Int) {x : Int} (h : x ∈ [y_f, y_n, y_a, y_eq, y_minus, y_plus, y_x]) :
    IsName (prog code c) progGhost x := by
  have h' : IsName (prog [] 0) progGhost x := by
    simp only [List.mem_cons, List.not_mem_nil, or_false] at h
    rcases h with rfl | rfl | rfl | rfl | rfl | rfl | rfl <;>
      exact ⟨⟨by decide, rfl, by decide, rfl, by decide⟩, rfl, by decide, by decide, by decide⟩
  exact h'.later ((prog_grow code c).later progGhost)

theorem prog_var (mes : Bool) (code : List Cell) (c : Int) {x : Int} (h : x ∈ [y_f, y_n, y_a, y_eq, y_minus, y_plus, y_x]) :
    IsCode (prog code c) progGhost mes progNames x (.var x) := by
  refine .var (prog_name code c h) ?_ ?_ <;>
  · simp only [List.mem_cons, List.not_mem_nil, or_false] at h
    rcases h with rfl | rfl | rfl | rfl | rfl | rfl | rfl <;> decide

/-- The body of a procedure in which nothing is expanded. -/
theorem prog_body {s : St} {W : Ghost} {mes : Bool} {p : Int} {es : List Expr} (fs : List Int) (r : Option Int) (h : IsSeq s W mes progNames p es) :
    IsSeq s W mes (progNames.under fs r) p es := Spec.IsSeq.names (N := progNames) (N' := progNames.under fs r) (fun _ h => h) (fun _ h => h.elim) h

theorem prog_called (code : List Cell) (c : Int) : Called c_vm_eval (prog code c) := ⟨rfl, rfl⟩

/-- An expression to be evaluated in the sample memory. -/
theorem prog_at {mes : Bool} {code : List Cell} {c : Int} {e : Expr} (h : IsCode (prog code c) progGhost mes progNames c e) :
    AtCode (prog code c) progGhost mes progNames (fun _ => none) progStore e :=
  ⟨prog_called code c, prog_world mes code c, h, prog_scope code c⟩

theorem prog_form {mes : Bool} {code : List Cell} {c : Int} {f : Toplevel} (h : IsForm (prog code c) progGhost mes progNames c f) :
    AtForm (prog code c) progGhost mes progNames progStore f := by
  refine ⟨prog_called code c, prog_world mes code c, h, prog_scope code c, ?_⟩
  show ((prog code c).cell ((prog code c).cell 176).car).car ≠ c_closure
  rw [prog_cell code c (a := 176) (by decide)]
  rw [prog_cell code c (by decide)]
  decide

theorem big_at {mes : Bool} {code : List Cell} {c : Int} {e : Expr} (A : Int) (h : IsCode (prog code c) progGhost mes progNames c e) :
    AtCode (bigProg A code c) progGhost mes progNames (fun _ => none) progStore e :=
  ⟨⟨rfl, rfl⟩, (prog_world mes code c).grow (big_grow A code c) rfl, h.later ((big_grow A code c).later _),
    (prog_scope code c).later ((big_grow A code c).later _)⟩

/-- Pairs and numbers of the code. -/
theorem prog_pair {code : List Cell} {c a : Int} (n : Nat) (hl : code.length = n) (ha : 198 ≤ a ∧ a < 198 + n)
    (ht : ((prog code c).cell a).tag = .pair) : FixedPair (prog code c) progGhost.chg a := by
  refine ⟨by simp only [c_nil]; omega, ⟨by omega, ?_⟩, ht, ?_⟩
  · rw [prog_free, hl]; exact ha.2
  · intro h
    have h : a = 151 ∨ a = 152 ∨ a = 153 ∨ a = 154 ∨ a = 161 := h
    omega

theorem prog_num (mes : Bool) {code : List Cell} {c a m : Int} (n : Nat) (hl : code.length = n) (ha : 198 ≤ a ∧ a < 198 + n)
    (ht : (prog code c).cell a = num m) : IsCode (prog code c) progGhost mes progNames a (.const (.int m)) := by
  have hf : ¬ progGhost.chg a := fun h => by
    have h : a = 151 ∨ a = 152 ∨ a = 153 ∨ a = 154 ∨ a = 161 := h
    omega
  refine .const (.int ⟨⟨by omega, ?_⟩, by rw [ht]; rfl, by rw [ht]; rfl⟩ hf) (by rw [ht]; simp [num]) hf
  rw [prog_free, hl]; exact ha.2

/-- A pair of the sample memory. -/
macro "fixed_pair" : tactic => `(tactic| exact ⟨by decide, by decide, rfl, by decide⟩)

end Mes
