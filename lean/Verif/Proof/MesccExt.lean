import Verif.Proof.MesccOps
import Verif.Spec.MesccFits

/-
The text only grows, and the number of values is as it should be.
-/
namespace Mes.X86
open Mes.Mescc Mes.CLang

/-- A later state of the compiler. -/
structure Ext (i i' : Info) : Prop where
  text : i.text <+: i'.text
  locals : i'.locals = i.locals
  function : i'.function = i.function
  breaks : i'.breaks = i.breaks
  continues : i'.continues = i.continues

theorem Ext.refl (i : Info) : Ext i i := ⟨List.prefix_refl _, rfl, rfl, rfl, rfl⟩

theorem Ext.trans {i j k : Info} (h : Ext i j) (h' : Ext j k) : Ext i k :=
  ⟨h.text.trans h'.text, h'.locals.trans h.locals, h'.function.trans h.function, h'.breaks.trans h.breaks, h'.continues.trans h.continues⟩

theorem Ext.append (i : Info) (t : List (List Line)) : Ext i (appendText i t) := ⟨⟨t, rfl⟩, rfl, rfl, rfl, rfl⟩

theorem Ext.alloc (i : Info) : Ext i (allocateRegister i) := by
  unfold allocateRegister
  split
  · exact ⟨List.prefix_refl _, rfl, rfl, rfl, rfl⟩
  · exact ⟨⟨_, rfl⟩, rfl, rfl, rfl, rfl⟩

theorem Ext.free (i : Info) : Ext i (freeRegister i) := by
  unfold freeRegister
  split
  · exact ⟨List.prefix_refl _, rfl, rfl, rfl, rfl⟩
  · exact ⟨⟨_, rfl⟩, rfl, rfl, rfl, rfl⟩

/-- From `n` values to `n + k` values. -/
structure Grows (i : Info) (n : Nat) (i' : Info) (n' : Nat) : Prop where
  ext : Ext i i'
  regs : Regs i n → Regs i' n'

theorem Grows.trans {i j k : Info} {a b c : Nat} (h : Grows i a j b) (h' : Grows j b k c) : Grows i a k c :=
  ⟨h.ext.trans h'.ext, fun r => h'.regs (h.regs r)⟩

theorem Grows.append (i : Info) (n : Nat) (t : List (List Line)) : Grows i n (appendText i t) n := ⟨.append i t, fun h => h.append t⟩

theorem Grows.alloc (i : Info) (n : Nat) : Grows i n (allocateRegister i) (n + 1) := ⟨.alloc i, Regs.alloc⟩

theorem Grows.free (i : Info) (n : Nat) : Grows i (n + 1) (freeRegister i) n := ⟨.free i, Regs.release⟩

/-- What is known of the code of an expression. -/
structure CodeGrows (c : Code) : Prop where
  reg : ∀ i n, Grows i n (c.reg i) (n + 1)
  test : ∀ l i n, Grows i n (c.test l i) n

theorem binopToR_grows {a b : Code} (ha : CodeGrows a) (hb : CodeGrows b) (op : Info → List Line) (i : Info) (n : Nat) :
    Grows i n (binopToR a b op i) (n + 1) :=
  (ha.reg i n).trans ((hb.reg _ _).trans ((Grows.append _ _ _).trans (Grows.free _ _)))

theorem compareToR_grows {a b : Code} (ha : CodeGrows a) (hb : CodeGrows b) (set : String) (i : Info) (n : Nat) :
    Grows i n (compareToR a b set i) (n + 1) :=
  (binopToR_grows ha hb _ i n).trans ((Grows.append _ _ _).trans (Grows.append _ _ _))

theorem jumpWith_grows {reg : Info → Info} (h : ∀ i n, Grows i n (reg i) (n + 1)) (type : String → List Line) (test : Option (Info → List Line))
    (l : String) (i : Info) (n : Nat) : Grows i n (jumpWith reg type test l i) n :=
  (h i n).trans ((Grows.append _ _ _).trans ((Grows.append _ _ _).trans (Grows.free _ _)))

theorem binToRegister_grows {a b : Code} (ha : CodeGrows a) (hb : CodeGrows b) (op : Binop) (fixed : Option Const) (i : Info) (n : Nat)
    (s u : Bool) : Grows i n (binToRegister op a b fixed i s u) (n + 1) := by
  have hadd : ∀ (f : Info → Int → List Line) (v : Int), Grows i n (appendText (a.reg i) [f (a.reg i) v]) (n + 1) := fun f v =>
    (ha.reg i n).trans (Grows.append _ _ _)
  cases op <;> cases fixed
  all_goals first
    | exact hadd rAddValue _
    | exact binopToR_grows ha hb (r0DivR1 · s) i n
    | exact binopToR_grows ha hb (r0ModR1 · s) i n
    | exact binopToR_grows ha hb _ i n
    | exact compareToR_grows ha hb _ i n
    | exact (binopToR_grows ha hb _ i n).trans (Grows.append _ _ _)
    | exact (binopToR_grows ha hb _ i n).trans ((Grows.append _ _ _).trans ((Grows.append _ _ _).trans (Grows.append _ _ _)))

theorem compile_grows (e : Expr) : CodeGrows (compile e) := by
  have leaf : ∀ (f : Info → List (List Line)) i n, Grows i n (let i := allocateRegister i; appendText i (f i)) (n + 1) := fun f i n =>
    (Grows.alloc i n).trans (Grows.append _ _ _)
  induction e with
  | fixed c =>
    have hreg : ∀ i n, Grows i n ((compile (.fixed c)).reg i) (n + 1) := fun i n => leaf (fun i => [valueToR i c.value]) i n
    exact ⟨hreg, fun l i n => jumpWith_grows hreg jumpZ (some rZero) l i n⟩
  | chr c =>
    have hreg : ∀ i n, Grows i n ((compile (.chr c)).reg i) (n + 1) := fun i n => leaf (fun i => [valueToR i c]) i n
    exact ⟨hreg, fun l i n => jumpWith_grows hreg jumpZ (some rZero) l i n⟩
  | ident x =>
    have hreg : ∀ i n, Grows i n ((compile (.ident x)).reg i) (n + 1) := fun i n => leaf (fun i => identToR i x) i n
    exact ⟨hreg, fun l i n => jumpWith_grows hreg jumpZ (some rZero) l i n⟩
  | un op a ih =>
    cases op with
    | neg =>
      have hreg : ∀ i n, Grows i n ((compile (.un .neg a)).reg i) (n + 1) := by
        intro i n
        unfold compile
        dsimp only
        cases isFixed a with
        | some c => exact leaf (fun i => [valueToR i (-c.value)]) i n
        | none => exact (ih.reg i n).trans ((Grows.alloc _ _).trans ((Grows.append _ _ _).trans (Grows.free _ _)))
      exact ⟨hreg, fun l i n => jumpWith_grows hreg jumpZ (some rZero) l i n⟩
    | pos => exact ⟨ih.reg, fun l i n => jumpWith_grows ih.reg jumpZ (some rZero) l i n⟩
    | bitNot =>
      have hreg : ∀ i n, Grows i n ((compile (.un .bitNot a)).reg i) (n + 1) := fun i n => (ih.reg i n).trans (Grows.append _ _ _)
      exact ⟨hreg, fun l i n => jumpWith_grows hreg jumpZ (some rZero) l i n⟩
    | not =>
      have hreg : ∀ i n, Grows i n ((compile (.un .not a)).reg i) (n + 1) := fun i n =>
        (ih.reg i n).trans ((Grows.append _ _ _).trans ((Grows.append _ _ _).trans (Grows.append _ _ _)))
      exact ⟨hreg, fun l i n => jumpWith_grows hreg jumpZ none l i n⟩
  | bin op a b iha ihb =>
    have hreg : ∀ i n, Grows i n ((compile (.bin op a b)).reg i) (n + 1) := fun i n => binToRegister_grows iha ihb op _ i n _ _
    refine ⟨hreg, fun l i n => ?_⟩
    cases op
    all_goals first
      | exact jumpWith_grows hreg jumpZ (some rZero) l i n
      | exact jumpWith_grows hreg jumpZ none l i n
      | exact jumpWith_grows hreg jumpNz none l i n
  | land a b iha ihb =>
    refine ⟨fun i n => ?_, fun l i n => ?_⟩
    · exact (iha.reg i n).trans ((Grows.append _ _ _).trans ((Grows.append _ _ _).trans ((Grows.append _ _ _).trans ((Grows.free _ _).trans
        ((ihb.reg _ _).trans ((Grows.append _ _ _).trans (Grows.append _ _ _)))))))
    · exact (iha.test l i n).trans (ihb.test l _ _)
  | lor a b iha ihb =>
    refine ⟨fun i n => ?_, fun l i n => ?_⟩
    · exact (iha.reg i n).trans ((Grows.append _ _ _).trans ((Grows.append _ _ _).trans ((Grows.append _ _ _).trans ((Grows.free _ _).trans
        ((ihb.reg _ _).trans ((Grows.append _ _ _).trans (Grows.append _ _ _)))))))
    · exact (iha.test _ i n).trans ((Grows.append _ _ _).trans ((Grows.append _ _ _).trans ((ihb.test l _ _).trans (Grows.append _ _ _))))
  | cond a b c iha ihb ihc =>
    have hreg : ∀ i n, Grows i n ((compile (.cond a b c)).reg i) (n + 1) := fun i n =>
      (iha.test _ i n).trans ((ihb.reg _ _).trans ((Grows.free _ _).trans ((Grows.append _ _ _).trans ((Grows.append _ _ _).trans
        ((ihc.reg _ _).trans ((Grows.free _ _).trans ((Grows.append _ _ _).trans (Grows.alloc _ _))))))))
    exact ⟨hreg, fun l i n => jumpWith_grows hreg jumpZ (some rZero) l i n⟩
  | cast t a ih =>
    have hreg : ∀ i n, Grows i n ((compile (.cast t a)).reg i) (n + 1) := fun i n => (ih.reg i n).trans (Grows.append _ _ _)
    exact ⟨hreg, fun l i n => jumpWith_grows hreg jumpZ (some rZero) l i n⟩

end Mes.X86
