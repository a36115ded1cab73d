import Verif.Proof.MesccProgram
import Verif.Props.Mescc

/-
C67: the labels of a program are different from each other, and every jump goes to one of them.
C68: the assembler knows every mnemonic that MesCC writes.
C66, for whole programs.
-/
namespace Mes.Props
open Mes.X86 Mes.Mescc Mes.CLang

/-! ## C67 -/

/-- C67, as one would want it. -/
def C67_full : Prop :=
  ∀ fs : List Function, (fs.map Function.name).Nodup →
    (labelsOf (programText fs)).Nodup ∧
    ((∀ f ∈ fs, looped false f.body = true) → ∀ x ∈ targets (programText fs), x ∈ labelsOf (programText fs))

/-- It holds when no condition of an `if` or a `?:` begins with a `?:`, and when no function has the name `_g_...` where `g` is a function. -/
theorem C67_labels_partial (fs : List Function) (hn : (fs.map Function.name).Nodup) (hl : ∀ f ∈ fs, ledS f.body = true)
    (hu : ∀ f ∈ fs, ∀ g ∈ fs, ∀ x, f.name ≠ "_" ++ g.name ++ "_" ++ x) :
    (labelsOf (programText fs)).Nodup ∧
    ((∀ f ∈ fs, looped false f.body = true) → ∀ x ∈ targets (programText fs), x ∈ labelsOf (programText fs)) :=
  ⟨program_nodup hn hl hu, program_closed hl⟩

/-- int f (int a) { if (a ? a : a) return 1; return 0; } -/
def choice : Function :=
  ⟨"f", [("a", .int)], .seq (.ifThen (.cond (.ident "a") (.ident "a") (.ident "a")) (.ret (.fixed ⟨true, 1, .none⟩))) (.ret (.fixed ⟨true, 0, .none⟩))⟩

/-- The `if` and the `?:` that it begins with take their labels from the same place in the text. -/
theorem C67_twice : labelsOf (programText [choice]) = ["f", "_f_1_else", "_f_1_break", "_f_1_break"] := by decide +kernel

theorem C67_false : ¬ C67_full := fun h => by
  have := (h [choice] (by decide)).1
  rw [C67_twice] at this
  exact absurd this (by decide)

/-- int f (int a) { if (a) a = 1; return a; }  int _f_1_break (int a) { return a; } -/
def clash : List Function :=
  [⟨"f", [("a", .int)], .seq (.ifThen (.ident "a") (.assign "a" (.fixed ⟨true, 1, .none⟩))) (.ret (.ident "a"))⟩,
   ⟨"_f_1_break", [("a", .int)], .ret (.ident "a")⟩]

theorem C67_clash : (clash.map Function.name).Nodup ∧ ¬ (labelsOf (programText clash)).Nodup := by decide +kernel

/-! ## C68 -/

/-- C68, as one would want it: every text can be assembled, at every place and wherever the labels are. -/
def C68_full : Prop := ∀ (fs : List Function) (env : String → Word) (base : Word), ∃ bs, assemble env base (programText fs) = some bs

/-- It holds when every function has at most 31 variables or no variable of one or two bytes with an initial value. -/
theorem C68_assembles_partial (fs : List Function) (h : ∀ f ∈ fs, wide f.body = true ∨ decls f.body ≤ 31) (env : String → Word) (base : Word) :
    ∃ bs, assemble env base (programText fs) = some bs :=
  assemble_some env _ base (program_defined h)

/-- `n` variables of type `int`. -/
def variables : Nat → Stmt
  | 0 => .skip
  | n + 1 => .seq (.decl .int "x" none) (variables n)

/-- int f () { int x; ... int x; char c = 0; return c; } with `n` variables before `c`. -/
def crowded (n : Nat) : Function := ⟨"f", [], .seq (variables n) (.seq (.decl ⟨true, 1⟩ "c" (some (.fixed ⟨true, 0, .none⟩))) (.ret (.ident "c")))⟩

/-- With 31 variables before it the `char` is out of reach: `mov____%al,0x32(%ebp)` is not in x86.M1. -/
theorem C68_crowded : (∃ bs, assemble (fun _ => 0) 0 (programText [crowded 30]) = some bs) ∧ assemble (fun _ => 0) 0 (programText [crowded 31]) = none :=
  ⟨C68_assembles_partial [crowded 30] (fun f hf => by rw [List.mem_singleton.1 hf]; exact .inr (by decide)) _ _, by decide +kernel⟩

theorem C68_false : ¬ C68_full := fun h => by
  obtain ⟨bs, hb⟩ := h [crowded 31] (fun _ => 0) 0
  rw [C68_crowded.2] at hb
  cases hb

/-! ## C66 -/

/-- A program whose text is as in C67 and C68 can be assembled, and every plain function of it, called where its name says, comes back with the
value that C says. -/
theorem C66_program_partial (fs : List Function) (hn : (fs.map Function.name).Nodup) (hl : ∀ f ∈ fs, ledS f.body = true)
    (hu : ∀ f ∈ fs, ∀ g ∈ fs, ∀ x, f.name ≠ "_" ++ g.name ++ "_" ++ x) (hw : ∀ f ∈ fs, wide f.body = true ∨ decls f.body ≤ 31) (base : Word) :
    ∃ bs, assemble (addresses base (programText fs)) base (programText fs) = some bs ∧
      ∀ (f : Function) (args : List Int) (n : Nat) (v : Int) (room : Nat) (m : Mach), f ∈ fs → plainF f = true → Sized f room →
        f.params.length = args.length → Called base bs args room { m with eip := base } → m.eip = addresses base (programText fs) f.name →
        call n f args = some v → Returns m room args.length v := by
  obtain ⟨bs, hb⟩ := C68_assembles_partial fs hw (addresses base (programText fs)) base
  exact ⟨bs, hb, fun f args n v room m hf hp hs hlen hm he hc =>
    program_called hf hs hlen (C67_labels_partial fs hn hl hu).1 hb hm he (plain_called hp n args) hc⟩

/-- int g (int a, int b) { if (a < b || a == 0) return b; else return a - b; } -/
def difference : Function :=
  ⟨"g", [("a", .int), ("b", .int)],
    .ifElse (.lor (.bin .lt (.ident "a") (.ident "b")) (.bin .eq (.ident "a") (.fixed ⟨true, 0, .none⟩))) (.ret (.ident "b"))
      (.ret (.bin .sub (.ident "a") (.ident "b")))⟩

def twoFunctions : List Function := [squares, difference]

theorem twoFunctions_names : ∀ f ∈ twoFunctions, ∀ g ∈ twoFunctions, ∀ x, f.name ≠ "_" ++ g.name ++ "_" ++ x := by
  intro f hf g hg x e
  have : f.name.toList.head? = some '_' := by
    rw [e, String.append_assoc, String.append_assoc, String.toList_append]
    rfl
  rcases List.mem_cons.1 hf with rfl | hf
  · exact absurd this (by decide)
  · rw [List.mem_singleton.1 hf] at this
    exact absurd this (by decide)

example : (labelsOf (programText twoFunctions)).length = 11 ∧ (labelsOf (programText twoFunctions)).Nodup :=
  ⟨by decide +kernel, (C67_labels_partial twoFunctions (by decide) (by decide) twoFunctions_names).1⟩

/-- A machine that calls `g (7, 3)` in a program of two functions. -/
example : ∃ code : List Byte8, assemble (addresses 0x1000 (programText twoFunctions)) 0x1000 (programText twoFunctions) = some code ∧
    Returns { machine code [7, 3] with eip := addresses 0x1000 (programText twoFunctions) "g" } 10 2 4 := by
  obtain ⟨bs, hb, h⟩ := C66_program_partial twoFunctions (by decide) (by decide) twoFunctions_names (by decide) 0x1000
  refine ⟨bs, hb, h difference [7, 3] 10 4 10 _ (by simp [twoFunctions]) (by decide) ⟨by decide, ⟨rfl, trivial, rfl, trivial⟩, by decide, by decide⟩ rfl
    (machine_called ?_ (by decide)) rfl (by decide +kernel)⟩
  have : ((assemble (addresses 0x1000 (programText twoFunctions)) 0x1000 (programText twoFunctions)).getD []).length < 0x1000 := by decide +kernel
  rw [hb] at this
  exact this

end Mes.Props
