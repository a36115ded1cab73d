import Verif.Proof.EvalLoopCode
import Verif.Proof.Tail
import Verif.Spec.Builtins
/-
The meaning of the loop.
-/
namespace Mes
open Res Spec

variable {mes : Bool} {σ : Store}

/-- The loop procedure. -/
def loopProc : Value := .clo [y_n, y_a] none [loopBody] fun _ => none

/-- The memory during the loop: the builtins, the procedure in `x`, and `n` and `a`. -/
structure InLoop (σ : Store) (l : Nat) (n a : Int) : Prop where
  globals : σ.globals = progStore.globals
  eq : σ.vals[0]? = some (.prim (-1) 198)
  minus : σ.vals[1]? = some (.prim (-1) 199)
  plus : σ.vals[2]? = some (.prim (-1) 200)
  x : σ.vals[3]? = some loopProc
  n : σ.vals[l]? = some (.int n)
  a : σ.vals[l + 1]? = some (.int a)
  l : 4 ≤ l

def loopLocals (l : Nat) : Locals := bindAll [y_n, y_a] l fun _ => none

theorem equal_zero (n : Int) : Computes (-1) 198 [.int n, .int 0] (.obj (if n = 0 then c_t else c_f)) := by
  have e : (Neighbours (· = ·) [n, 0]) ↔ n = 0 := ⟨fun h => h 0 n 0 rfl rfl, fun h i => by
    match i with
    | 0 => intro a b ha hb; cases ha; cases hb; exact h
    | i + 1 => intro a b _ hb; simp at hb⟩
  have := Computes.equal (ns := [n, 0])
  simp only [Value.bool, e] at this
  exact this

theorem InLoop.test {l : Nat} {n a : Int} (h : InLoop σ l n a) (d : Nat) :
    Eval mes Computes (d + 3) (loopLocals l) σ loopTest (.obj (if n = 0 then c_t else c_f)) σ := by
  refine .app (fun _ => trivial) (.cons (.var (l := l) rfl h.n) (.cons (.const _) .nil)) (.var (l := 0) ?_ h.eq) (.prim (equal_zero n))
  simp only [Store.find, h.globals]; rfl

theorem minus_one {n : Int} (h : Word n) (h1 : Word (n - 1)) : Computes (-1) 199 [.int n, .int 1] (.int (n - 1)) :=
  Computes.minus (n := n) (m := 1) (ns := []) fun k => by
    match k with
    | 0 => simpa using h
    | k + 1 => simpa using h1

theorem plus_two {a n : Int} (h : Word a) (h1 : Word (a + n)) : Computes (-1) 200 [.int a, .int n] (.int (a + n)) := by
  have := Computes.plus (ns := [a, n]) fun k => by
    match k with
    | 0 => simp [Word]
    | 1 => simpa using h
    | k + 2 => simpa using h1
  simpa using this

/-- One round. -/
theorem InLoop.round {l : Nat} {n a : Int} (h : InLoop σ l n a) (hn : n ≠ 0) (h1 : Word (n - 1)) (h2 : Word a) (h3 : Word n) (h4 : Word (a + n)) :
    ∃ l' σ', InLoop σ' l' (n - 1) (a + n) ∧ Tails mes Computes 5 2 ⟨loopLocals l, σ, loopBody⟩ ⟨loopLocals l', σ', loopBody⟩ := by
  have hf := h.test (mes := mes) 2
  rw [if_neg hn] at hf
  refine ⟨σ.vals.length, { σ with vals := σ.vals ++ [.int (n - 1), .int (a + n)] }, ?_, .step (.iteFalse (c := loopTest) (t := .var y_a) (e := loopNext) hf) (.step ?_ .refl)⟩
  · have ap : ∀ (i : Nat) (v : Value), σ.vals[i]? = some v → (σ.vals ++ [.int (n - 1), .int (a + n)])[i]? = some v := fun i v hi => by
      rw [List.getElem?_append_left (by rw [List.getElem?_eq_some_iff] at hi; exact hi.1), hi]
    refine ⟨h.globals, ap _ _ h.eq, ap _ _ h.minus, ap _ _ h.plus, ap _ _ h.x, by simp, by simp, ?_⟩
    have := h.l
    have := (List.getElem?_eq_some_iff.1 h.n).1
    show 4 ≤ σ.vals.length
    omega
  · refine .call (b := []) (f := .var y_x) (fun _ => trivial) (.cons (σ₁ := σ) ?_ (.cons (σ₁ := σ) ?_ .nil)) (.var (l := 3) ?_ h.x) rfl .nil
    · refine .app (fun _ => trivial) (.cons (.var (l := l) rfl h.n) (.cons (.const _) .nil)) (.var (l := 1) ?_ h.minus) (.prim (minus_one h3 h1))
      simp only [Store.find, h.globals]; rfl
    · refine .app (fun _ => trivial) (.cons (.var (l := l + 1) rfl h.a) (.cons (.var (l := l) rfl h.n) .nil)) (.var (l := 2) ?_ h.plus) (.prim (plus_two h2 h4))
      simp only [Store.find, h.globals]; rfl
    · simp only [Store.find, h.globals]; rfl

theorem InLoop.rounds (n : Nat) {l : Nat} {a : Int} (h : InLoop σ l n a) (h0 : 0 ≤ a) (hs : a + n * n < 2 ^ 62) :
    ∃ c', Tails mes Computes 5 (2 * n + 1) ⟨loopLocals l, σ, loopBody⟩ c' ∧
      Eval mes Computes 6 c'.ρ c'.σ c'.e (.int (a + n * (n + 1) / 2)) c'.σ := by
  induction n generalizing σ l a with
  | zero =>
    refine ⟨⟨loopLocals l, σ, .var y_a⟩, .step (.iteTrue (c := loopTest) (t := .var y_a) (e := loopNext) (h.test 2) (by simp [c_t, c_f])) .refl, ?_⟩
    simpa using Eval.var (l := l + 1) rfl h.a
  | succ n ih =>
    have e1 : ((n + 1 : Nat) : Int) - 1 = n := by omega
    have e2 : ((n + 1 : Nat) : Int) * ((n + 1 : Nat) : Int) = n * n + 2 * n + 1 := by
      rw [Int.natCast_add, Int.add_mul, Int.mul_add]; omega
    have e3 : (0 : Int) ≤ (n : Int) * n := Int.mul_nonneg (by omega) (by omega)
    rw [e2] at hs
    obtain ⟨l', σ', h', ht⟩ := h.round (mes := mes) (by omega) (by unfold Word; omega) (by unfold Word; omega) (by unfold Word; omega) (by unfold Word; omega)
    rw [e1] at h'
    obtain ⟨c', t', v'⟩ := ih h' (by omega) (by omega)
    refine ⟨c', ?_, ?_⟩
    · rw [show 2 * (n + 1) + 1 = 2 + (2 * n + 1) by omega]
      exact ht.trans t'
    · have e4 : a + ((n + 1 : Nat) : Int) * (((n + 1 : Nat) : Int) + 1) / 2 = a + ((n + 1 : Nat) : Int) + (n : Int) * ((n : Int) + 1) / 2 := by
        rw [Int.mul_add, e2, Int.mul_add]
        omega
      rw [e4]; exact v'

theorem loop_tails (m : Nat) (hm : m < 2 ^ 31) : ∃ c', Tails mes Computes 5 (2 * m + 3) ⟨fun _ => none, progStore, loopExpr m⟩ c' ∧
    Eval mes Computes 6 c'.ρ c'.σ c'.e (.int (m * (m + 1) / 2)) c'.σ := by
  have hin : InLoop ⟨progStore.vals.set 3 loopProc ++ [.int m, .int 0], progStore.globals⟩ 4 m 0 := ⟨rfl, rfl, rfl, rfl, rfl, rfl, rfl, by decide⟩
  have hq : (m : Int) * m < 2 ^ 62 := by
    have : (m : Int) * m ≤ (2 ^ 31 - 1) * (2 ^ 31 - 1) := Int.mul_le_mul (by omega) (by omega) (by omega) (by omega)
    omega
  obtain ⟨c', h1, h2⟩ := hin.rounds (mes := mes) m (by decide) (by omega)
  refine ⟨c', ?_, by rw [Int.zero_add] at h2; exact h2⟩
  rw [show 2 * m + 3 = (2 * m + 1) + 1 + 1 by omega]
  refine .step (.begin (es := [loopSet]) (e := .app (.var y_x) [.const (.int m), .const (.int 0)]) (.cons (.set (l := 3) (.lam ..) rfl) .nil)) (.step ?_ h1)
  exact .call (b := []) (f := .var y_x) (fs := [y_n, y_a]) (r := none) (e := loopBody) (ρ' := fun _ => none) (ps := [.int m, .int 0]) (fun _ => trivial) (.cons (.const _) (.cons (.const _) .nil)) (.var (l := 3) rfl rfl) rfl .nil

end Mes
