import Verif.Model.Builtins
/-
More fuel never changes a result: every modelled function used by the evaluator that has a fuel argument gives, with more
fuel, the same outcome or one where there was none (`loop`).  So a run of a concrete program, computed once, is a statement
for every larger fuel.
-/
namespace Mes
open Res

/-- The outcome `r` is the outcome `r'`, or the fuel ran out. -/
def Res.Le {α : Type} (r r' : Res α) : Prop := r = loop ∨ r = r'

namespace Res
variable {α β : Type}

theorem Le.refl (r : Res α) : Le r r := .inr rfl
theorem Le.bot (r : Res α) : Le loop r := .inl rfl
theorem Le.eq {r r' : Res α} (h : Le r r') (hr : r ≠ loop) : r' = r := (h.resolve_left hr).symm

theorem Le.bind {r r' : Res α} {f g : α → Res β} (h : Le r r') (hf : ∀ a, Le (f a) (g a)) : Le (r >>= f) (r' >>= g) := by
  rcases h with rfl | rfl
  · exact .inl rfl
  · cases r with
    | ok a => exact hf a
    | _ => exact .inr rfl

theorem Le.ite {c : Prop} [Decidable c] {a b a' b' : Res α} (h : Le a a') (h' : Le b b') :
    Le (if c then a else b) (if c then a' else b') := by
  split
  · exact h
  · exact h'

end Res

open Res

/-- Compare two programs that differ in their fuel. -/
syntax "fuel" ("[" term,* "]")? : tactic
macro_rules
  | `(tactic| fuel) => `(tactic| fuel [])
  | `(tactic| fuel [$ts,*]) => do
    let alts ← ts.getElems.mapM fun t => `(tactic| with_reducible apply $t <;> assumption)
    let alts := alts
    `(tactic| repeat' (first
      | with_reducible exact Le.refl _
      $[| $alts:tactic]*
      | with_reducible apply Le.bind
      | with_reducible apply Le.ite
      | (intro (a, b); try dsimp only)
      | (intro x; try dsimp only)
      | dsimp only))

/-- Induction over the fuel of a loop. -/
macro "fuel_loop " f:ident " [" ts:term,* "]" : tactic => do
  `(tactic| (
    intro f
    induction f with
    | zero => intros; exact Le.bot _
    | succ f ih =>
      intro g h
      cases g with
      | zero => omega
      | succ g =>
        have h' := Nat.le_of_succ_le_succ h
        intros
        unfold $f
        fuel [ih h', $ts,*]))

theorem lengthLoop_fuel {s : St} : ∀ {f g}, f ≤ g → ∀ {n x}, Le (lengthLoop s f n x) (lengthLoop s g n x) := by
  fuel_loop lengthLoop []

theorem revOnto_fuel : ∀ {f g}, f ≤ g → ∀ {s x r}, Le (revOnto f s x r) (revOnto g s x r) := by
  fuel_loop revOnto []

theorem reverseXLoop_fuel : ∀ {f g}, f ≤ g → ∀ {s x r}, Le (reverseXLoop f s x r) (reverseXLoop g s x r) := by
  fuel_loop reverseXLoop []

theorem assqPtr_fuel {s : St} {x : Int} : ∀ {f g}, f ≤ g → ∀ {a}, Le (assqPtr s x f a) (assqPtr s x g a) := by
  fuel_loop assqPtr []

theorem assqVal_fuel {s : St} {x : Int} : ∀ {f g}, f ≤ g → ∀ {a}, Le (assqVal s x f a) (assqVal s x g a) := by
  fuel_loop assqVal []

theorem assqKey_fuel {s : St} {x : Int} : ∀ {f g}, f ≤ g → ∀ {a}, Le (assqKey s x f a) (assqKey s x g a) := by
  fuel_loop assqKey []

theorem pairlis_fuel : ∀ {f g}, f ≤ g → ∀ {s x y a}, Le (pairlis f s x y a) (pairlis g s x y a) := by
  fuel_loop pairlis []

theorem addFormals_fuel : ∀ {f g}, f ≤ g → ∀ {s x y}, Le (addFormals f s x y) (addFormals g s x y) := by
  fuel_loop addFormals []

theorem formalP_fuel {s : St} {x : Int} : ∀ {f g}, f ≤ g → ∀ {y}, Le (formalP s x f y) (formalP s x g y) := by
  fuel_loop formalP []

theorem greaterLoop_fuel {s : St} : ∀ {f g}, f ≤ g → ∀ {n x}, Le (greaterLoop s f n x) (greaterLoop s g n x) := by
  fuel_loop greaterLoop []

theorem lessLoop_fuel {s : St} : ∀ {f g}, f ≤ g → ∀ {n x}, Le (lessLoop s f n x) (lessLoop s g n x) := by
  fuel_loop lessLoop []

theorem isLoop_fuel {s : St} {n : Int} : ∀ {f g}, f ≤ g → ∀ {x}, Le (isLoop s n f x) (isLoop s n g x) := by
  fuel_loop isLoop []

theorem foldNumbers_fuel {s : St} {op : Int → Int → Res Int} :
    ∀ {f g}, f ≤ g → ∀ {n x}, Le (foldNumbers s op f n x) (foldNumbers s op g n x) := by
  fuel_loop foldNumbers []

theorem divideLoop_fuel {s : St} : ∀ {f g}, f ≤ g → ∀ {b u x}, Le (divideLoop s f b u x) (divideLoop s g b u x) := by
  fuel_loop divideLoop []

theorem modLoop_fuel {w : Int} : ∀ {f g}, f ≤ g → ∀ {n}, Le (modLoop w f n) (modLoop w g n) := by
  fuel_loop modLoop []

theorem gcLoop_fuel : ∀ {f g}, f ≤ g → ∀ {s x}, Le (gcLoop f s x) (gcLoop g s x) := by
  fuel_loop gcLoop []

theorem gcCellcpy_fuel : ∀ {f g}, f ≤ g → ∀ {s x y n}, Le (gcCellcpy f s x y n) (gcCellcpy g s x y n) := by
  fuel_loop gcCellcpy []

variable {f g : Nat} (h : f ≤ g)
include h

theorem length_fuel {s : St} {x : Int} : Le (length__ s f x) (length__ s g x) := by
  unfold length__; fuel [lengthLoop_fuel h]

theorem reverseX_fuel {s : St} {x y : Int} : Le (reverseX s f x y) (reverseX s g x y) := by
  unfold reverseX; fuel [reverseXLoop_fuel h]

theorem append2_fuel {s : St} {x y : Int} : Le (append2 s f x y) (append2 s g x y) := by
  unfold append2; fuel [revOnto_fuel h, reverseX_fuel h]

theorem assq_fuel {s : St} {x y : Int} : Le (assq s f x y) (assq s g x y) := by
  unfold assq; fuel [assqPtr_fuel h, assqVal_fuel h, assqKey_fuel h]

theorem hashqGetHandle_fuel {s : St} {x y z : Int} : Le (hashqGetHandle s f x y z) (hashqGetHandle s g x y z) := by
  unfold hashqGetHandle; fuel [assq_fuel h]

theorem moduleVariable_fuel {s : St} {x y : Int} : Le (moduleVariable s f x y) (moduleVariable s g x y) := by
  unfold moduleVariable; fuel [assq_fuel h, hashqGetHandle_fuel h]

theorem moduleRef_fuel {s : St} {x y : Int} : Le (moduleRef s f x y) (moduleRef s g x y) := by
  unfold moduleRef; fuel [moduleVariable_fuel h]

theorem checkFormals_fuel {s : St} {x y : Int} : Le (checkFormals s f x y) (checkFormals s g x y) := by
  unfold checkFormals; fuel [length_fuel h]

theorem setEnvX_fuel {s : St} {x y z : Int} : Le (setEnvX s f x y z) (setEnvX s g x y z) := by
  unfold setEnvX; fuel [moduleVariable_fuel h]

theorem macroGetHandle_fuel {s : St} {x : Int} : Le (macroGetHandle s f x) (macroGetHandle s g x) := by
  unfold macroGetHandle; fuel [hashqGetHandle_fuel h]

theorem getMacro_fuel {s : St} {x : Int} : Le (getMacro s f x) (getMacro s g x) := by
  unfold getMacro; fuel [macroGetHandle_fuel h]

omit h in
theorem expandVariable_fuel :
    ∀ {f g}, f ≤ g → ∀ {s x y b}, Le (expandVariable f s x y b) (expandVariable g s x y b) := by
  fuel_loop expandVariable [addFormals_fuel (by assumption), formalP_fuel (by assumption), moduleVariable_fuel (by assumption)]

theorem evalDefineForm_fuel {s : St} {b : Bool} : Le (evalDefineForm s f b) (evalDefineForm s g b) := by
  unfold evalDefineForm
  fuel [assq_fuel h, moduleVariable_fuel h, pairlis_fuel h, expandVariable_fuel h]

theorem storeDefine_fuel {s : St} {a b : Bool} : Le (storeDefine s f a b) (storeDefine s g a b) := by
  unfold storeDefine; fuel [macroGetHandle_fuel h, moduleVariable_fuel h]

theorem scExpand_fuel {s : St} : Le (scExpand s f) (scExpand s g) := by
  unfold scExpand; fuel [macroGetHandle_fuel h, moduleRef_fuel h, assq_fuel h]

theorem applyClosure_fuel {s : St} {x y : Int} : Le (applyClosure s f x y) (applyClosure s g x y) := by
  unfold applyClosure; fuel [checkFormals_fuel h, pairlis_fuel h]

theorem gcCheck_fuel {s : St} : Le (gcCheck s f) (gcCheck s g) := by
  unfold gcCheck gc gc_ gcFlip; fuel [gcLoop_fuel h, gcCellcpy_fuel h]

/-- More fuel does not change what the called functions do. -/
def Calls.Fuel (K : Calls) : Prop :=
  ∀ f g : Nat, f ≤ g → (∀ i xs s, Le (K.builtin f i xs s) (K.builtin g i xs s)) ∧ ∀ x s, Le (K.load f x s) (K.load g x s)

theorem minus_fuel {s : St} {x : Int} : Le (minus s f x) (minus s g x) := by
  unfold minus; fuel [foldNumbers_fuel h]
theorem plus_fuel {s : St} {x : Int} : Le (plus s f x) (plus s g x) := by
  unfold plus; fuel [foldNumbers_fuel h]
theorem multiply_fuel {s : St} {x : Int} : Le (multiply s f x) (multiply s g x) := by
  unfold multiply; fuel [foldNumbers_fuel h]
theorem divide_fuel {s : St} {x : Int} : Le (divide s f x) (divide s g x) := by
  unfold divide; fuel [divideLoop_fuel h]
theorem modulo_fuel {s : St} {x y : Int} : Le (modulo s f x y) (modulo s g x y) := by
  unfold modulo; fuel [modLoop_fuel h]
theorem greaterP_fuel {s : St} {x : Int} : Le (greaterP s f x) (greaterP s g x) := by
  unfold greaterP; fuel [greaterLoop_fuel h]
theorem lessP_fuel {s : St} {x : Int} : Le (lessP s f x) (lessP s g x) := by
  unfold lessP; fuel [lessLoop_fuel h]
theorem isP_fuel {s : St} {x : Int} : Le (isP s f x) (isP s g x) := by
  unfold isP; fuel [isLoop_fuel h]
theorem lengthP_fuel {s : St} {x : Int} : Le (lengthP s f x) (lengthP s g x) := by
  unfold lengthP; fuel [length_fuel h]

theorem function1_fuel {s : St} {i x : Int} : Le (function1 s f i x) (function1 s g i x) := by
  unfold function1 same
  fuel [minus_fuel h, plus_fuel h, multiply_fuel h, divide_fuel h, greaterP_fuel h, lessP_fuel h, isP_fuel h,
    lengthP_fuel h]

theorem function2_fuel {s : St} {i x y : Int} : Le (function2 s f i x y) (function2 s g i x y) := by
  unfold function2
  fuel [append2_fuel h, modulo_fuel h]

omit h in
theorem builtins_fuel : builtins.Fuel := by
  intro f g h
  refine ⟨fun i xs s => ?_, fun _ _ => Le.refl _⟩
  show Le (match xs with | [x] => _ | [x, y] => _ | [x, y, z] => _ | _ => _) _
  match xs with
  | [] => exact Le.refl _
  | [x] => exact function1_fuel h
  | [x, y] => exact function2_fuel h
  | [x, y, z] => exact Le.refl _
  | _ :: _ :: _ :: _ :: _ => exact Le.refl _

variable {K : Calls} (hK : K.Fuel)
include hK

theorem applyBuiltin_fuel {s : St} {x y : Int} : Le (applyBuiltin K s f x y) (applyBuiltin K s g x y) := by
  have hb := (hK f g h).1
  unfold applyBuiltin; fuel [hb]

theorem applyPrim_fuel {s : St} {x y : Int} : Le (applyPrim K s f x y) (applyPrim K s g x y) := by
  unfold applyPrim; fuel [checkFormals_fuel h, applyBuiltin_fuel h hK]

theorem step_fuel (v : Vm) : Le (step K f v) (step K g v) := by
  have hl := (hK f g h).2
  obtain ⟨pc, s, x, gp, mp⟩ := v
  cases pc
  case apply =>
    unfold step
    dsimp only
    refine Le.bind (Le.refl _) fun c => ?_
    refine Le.bind (Le.refl _) fun s' => ?_
    refine Le.bind (Le.refl _) fun cf => ?_
    refine Le.bind (Le.refl _) fun (b, s'') => ?_
    dsimp only
    refine Le.ite ?_ ?_
    · fuel [applyPrim_fuel h hK]
    · cases cf.tag <;> dsimp only <;> fuel [applyClosure_fuel h, pairlis_fuel h, checkFormals_fuel h]
  case eval =>
    unfold step
    dsimp only
    refine Le.bind (Le.refl _) fun c => ?_
    cases c.tag <;> dsimp only <;> fuel [evalDefineForm_fuel h, gcCheck_fuel h, moduleRef_fuel h]
  case evalDefine =>
    cases gp <;> cases mp <;> unfold step <;> dsimp only <;> fuel [storeDefine_fuel h]
  all_goals
    unfold step
    dsimp only
    fuel [setEnvX_fuel h, getMacro_fuel h, scExpand_fuel h, gcCheck_fuel h, append2_fuel h, hl, expandVariable_fuel h]

theorem run_fuel (n : Nat) (v : Vm) : Le (run K f n v) (run K g n v) := by
  induction n generalizing v with
  | zero => exact Le.refl _
  | succ n ih => exact Le.bind (step_fuel h hK v) ih

end Mes
