import Verif.Proof.MainRun
import Verif.Props.Boot
/-
Property C61: what `main` does before it reads the program (/repo/src/mes.c:31-76, 184-193 and the functions it calls).
-/
namespace Mes.Props
open Res Spec

variable {z : Sizes} {junk : Int → Cell} {stack : Int → Int} {o : Setup} {fuel more : Nat} {w : In} {t : List Byte} {clear : Bool}

/-- C61: whatever the memory holds before, when it is large enough, `main` makes the symbol table and gives all builtins, types and
texts from the environment to the variables of the program. -/
def C61_full : Prop :=
  ∀ (z : Sizes) (junk : Int → Cell) (stack : Int → Int) (o : Setup) (fuel more : Nat), SetupTexts o z.maxString → setupCells o ≤ z.arena → 64 ≤ z.maxString → 500 ≤ fuel → 200 ≤ more →
    ∃ s' H σ W, mainSetup (gcInit z junk stack) fuel more o = ok s' ∧ SymTable s' 500 H ∧ World s' W true σ ∧ Started o s' H σ

/-- A set-up without arguments. -/
def plainSetup (kept : Bool) : Setup := ⟨[], [], [], [], [], 100, false, kept⟩

/-- The value of `init_time` is undefined: /repo/src/posix.c:390-395. -/
theorem C61_false : ¬ C61_full := by
  intro h
  obtain ⟨s', -, -, -, h1, -⟩ := h ⟨20000, 0, 0, 100, 64⟩ (fun _ => default) (fun _ => 0) (plainSetup false) 500 200 (by unfold SetupTexts plainSetup; simp)
    (by decide) (by decide) (by decide) (by decide)
  revert h1
  simp only [mainSetup, Res.bind_eq_ok]
  rintro ⟨x, -, y, -, u, h, -⟩
  simp only [initTime, Res.bind_eq_ok] at h
  obtain ⟨_, -, h⟩ := h
  cases h

/-- C61 when `init_time` returns the list.  The program can be read next: only cells that the evaluator does not rely on are
changed by the reader, and no name is the name of a macro. -/
theorem C61_setup_partial (hk : o.kept = true) (ho : SetupTexts o z.maxString) (ha : setupCells o ≤ z.arena) (hm : 64 ≤ z.maxString)
    (hf : 500 ≤ fuel) (hmore : 200 ≤ more) (hi : FileInput w t clear) :
    ∃ E s' H σ W, mainSetup (gcInit z junk stack) fuel more o = ok s' ∧ E.k = fuel ∧ E.mx = z.maxString ∧ E.m = 0 ∧
      Reading E s' w H t clear ∧ BootPre E true σ W 100 startScope H s' ∧ Started o s' H σ ∧ H.length ≤ 450 ∧
      s'.free ≤ setupCells o ∧ s'.arena = z.arena ∧ s'.safety = z.safety ∧ s'.stackSize = z.stack ∧ s'.sp = z.stack := by
  obtain ⟨E, s', H, σ, W, h1, h2, h3, -, -, h4, h5, h6, h7, -, -, h8, h9, h10, -, h11, h12, h13⟩ :=
    mainSetup_ok (s := gcInit z junk stack) (mes := true) hk ho ha hm hf hmore hi
  exact ⟨E, s', H, σ, W, h4, h1, h2, h3, h5, h6, h7, h8, h9, h10, h11, h12, h13.trans h12⟩

/-- The builtins whose values `Computes` gives, by name. -/
def computed : List (List Byte × Int × Int) :=
  [(ascii ['c', 'a', 'r'], 1, 141),
   (ascii ['c', 'd', 'r'], 1, 142),
   (ascii ['l', 'i', 's', 't'], -1, 143),
   (ascii ['n', 'u', 'l', 'l', '?'], 1, 144),
   (ascii ['e', 'q', '?'], 2, 145),
   (ascii ['a', 'c', 'o', 'n', 's'], 3, 147),
   (ascii ['l', 'e', 'n', 'g', 't', 'h'], 1, 148),
   (ascii ['a', 'p', 'p', 'e', 'n', 'd', '2'], 2, 150),
   (ascii ['c', 'o', 'n', 's'], 2, 171),
   (ascii ['p', 'a', 'i', 'r', '?'], 1, 192),
   (ascii ['c', 'h', 'a', 'r', '-', '>', 'i', 'n', 't', 'e', 'g', 'e', 'r'], 1, 193),
   (ascii ['i', 'n', 't', 'e', 'g', 'e', 'r', '-', '>', 'c', 'h', 'a', 'r'], 1, 194),
   (ascii ['>'], -1, 196),
   (ascii ['<'], -1, 197),
   (ascii ['='], -1, 198),
   (ascii ['-'], -1, 199),
   (ascii ['+'], -1, 200),
   (ascii ['*'], -1, 203)]

theorem computed_mem : ∀ e ∈ computed, e ∈ builtinTable false := by decide +kernel

/-- With the usual builtins, the names have the meanings that the properties of the evaluator use. -/
theorem C61_names {s : St} {H : List (List Byte × Int)} {σ : Store} (h : Started o s H σ) (hm : o.mini = false) :
    ∀ e ∈ computed, VarIs H σ e.1 (.prim e.2.1 e.2.2) := fun e he => h.builtins e (by rw [hm]; exact computed_mem e he)

/-- Each builtin is made with the number of parameters of its C function, under its name, and there is one for each function. -/
theorem C61_arities : (builtinTable false).map (fun e => (e.1, e.2.1)) = signatures.map (fun e => (ascii e.1, e.2)) ∧
    (∀ e ∈ builtinTable true, (e.1, e.2.1) ∈ signatures.map (fun e => (ascii e.1, e.2))) ∧
    ((builtinTable false).map fun e => e.2.2).Pairwise (· < ·) ∧ ∀ e ∈ builtinTable true, e ∈ builtinTable false := by
  decide +kernel

/-- From the start of `main` to the value of the program.  When `main` has made the symbol table and the variables, and has read the
text `t` of the program, the names have symbols (`H`) and the variables values (`σ`); and whatever the forms of the program give when
they are evaluated one after the other, is the result of `eval_apply` in all memories that are large enough. -/
theorem C61_run_partial {mx fuel' more' : Nat} {ds : List Datum} (hk : o.kept = true) (ho : SetupTexts o mx) (hm : 64 ≤ mx) (hf : 500 ≤ fuel) (hmore : 200 ≤ more)
    (hi : FileInput w t clear) (hp : Program mx ds t) (hn : ∀ d ∈ ds, d ≠ .nil) (hl : 450 + t.length < fuel) (hf' : 2 * t.length + 2 ≤ fuel') (hm' : ds.length < more') :
    ∃ H σ, TableKnown H ∧ (∀ name, (Datum.list ds).Uses name → ∃ x, lookup name H = some x) ∧
      (∀ e ∈ builtinTable o.mini, VarIs H σ e.1 (.prim e.2.1 e.2.2)) ∧
      (∀ x loc, σ.globals x = some loc → ∃ name ∈ startVariables o.mini, lookup name H = some x) ∧
      ∀ fs d v σ', MeansProgram (symbolIn H) true startScope ds fs → Loads true Computes d σ (.obj c_unspecified) fs v σ' →
      ∃ k : Nat, ∀ z : Sizes, z.maxString = mx → 0 ≤ z.safety → (setupCells o + textRoom t.length + k : Nat) + z.safety ≤ z.arena →
        5 * (((max (programDepth fs) d + 1 : Nat) : Int) + 1) ≤ z.stack →
        ∃ s0 s1 w1, mainSetup (gcInit z junk stack) fuel more o = ok s0 ∧ Started o s0 H σ ∧ mainRead fuel fuel' more' s0 w = ok (s1, w1) ∧
          Evaluates builtins s1 (Result s1 true v σ') := by
  obtain ⟨H, σ, h1, h2, h3⟩ := main_run (mes := true) (junk := junk) (stack := stack) hk ho hm hf hmore hi hp hn hl hf' hm'
  refine ⟨H, σ, h1, h2, ?_, ?_, fun fs d v σ' hmean hl => ?_⟩
  · obtain ⟨s0, -, -, -, q, -⟩ := h3 0 0 ⟨(setupCells o + textRoom t.length : Nat), 0, 0, 10, mx⟩ rfl (Int.le_refl _) (by simp) (by show (5:Int) * (((0:Nat):Int) + 1) ≤ 10; decide)
    exact q.builtins
  · obtain ⟨s0, -, -, -, q, -⟩ := h3 0 0 ⟨(setupCells o + textRoom t.length : Nat), 0, 0, 10, mx⟩ rfl (Int.le_refl _) (by simp) (by show (5:Int) * (((0:Nat):Int) + 1) ≤ 10; decide)
    exact q.only
  · obtain ⟨k, hk⟩ := C59_load_partial implements_builtins hl
    refine ⟨k, fun z e1 e2 e3 e4 => ?_⟩
    obtain ⟨s0, s1, w1, q1, q2, q3, q4⟩ := h3 k _ z e1 e2 e3 e4
    obtain ⟨q5, W, L, q6, q7⟩ := q4 fs hmean
    exact ⟨s0, s1, w1, q1, q2, q3, hk W s1 _ 100 L q5 q6 q7⟩

/-- The same for programs that raise an error. -/
theorem C61_error_partial {mx fuel' more' : Nat} {ds : List Datum} (hk : o.kept = true) (ho : SetupTexts o mx) (hm : 64 ≤ mx) (hf : 500 ≤ fuel) (hmore : 200 ≤ more)
    (hi : FileInput w t clear) (hp : Program mx ds t) (hn : ∀ d ∈ ds, d ≠ .nil) (hl : 450 + t.length < fuel) (hf' : 2 * t.length + 2 ≤ fuel') (hm' : ds.length < more') :
    ∃ H σ, TableKnown H ∧ (∀ name, (Datum.list ds).Uses name → ∃ x, lookup name H = some x) ∧
      (∀ e ∈ builtinTable o.mini, VarIs H σ e.1 (.prim e.2.1 e.2.2)) ∧
      (∀ x loc, σ.globals x = some loc → ∃ name ∈ startVariables o.mini, lookup name H = some x) ∧
      ∀ fs d key, MeansProgram (symbolIn H) true startScope ds fs → LoadFails true Computes Rejects (fun _ => False) d σ fs key →
      ∃ k : Nat, ∀ z : Sizes, z.maxString = mx → 0 ≤ z.safety → (setupCells o + textRoom t.length + k : Nat) + z.safety ≤ z.arena →
        5 * (((max (programDepth fs) d + 1 : Nat) : Int) + 1) ≤ z.stack →
        ∃ s0 s1 w1, mainSetup (gcInit z junk stack) fuel more o = ok s0 ∧ Started o s0 H σ ∧ mainRead fuel fuel' more' s0 w = ok (s1, w1) ∧
          Errs builtins s1 key := by
  obtain ⟨H, σ, h1, h2, h3⟩ := main_run (mes := true) (junk := junk) (stack := stack) hk ho hm hf hmore hi hp hn hl hf' hm'
  obtain ⟨s0, -, -, -, q, -⟩ := h3 0 0 ⟨(setupCells o + textRoom t.length : Nat), 0, 0, 10, mx⟩ rfl (Int.le_refl _) (by simp) (by show (5:Int) * (((0:Nat):Int) + 1) ≤ 10; decide)
  refine ⟨H, σ, h1, h2, q.builtins, q.only, fun fs d key hmean hl => ?_⟩
  obtain ⟨k, hk⟩ := C59_error_partial implements_builtins raises_builtins hl
  refine ⟨k, fun z e1 e2 e3 e4 => ?_⟩
  obtain ⟨s0, s1, w1, q1, q2, q3, q4⟩ := h3 k _ z e1 e2 e3 e4
  obtain ⟨q5, W, L, q6, q7⟩ := q4 fs hmean
  exact ⟨s0, s1, w1, q1, q2, q3, hk W s1 _ 100 L q5 q6 nofun q7⟩

/-- A name that is not predefined has a symbol that a program can use for variables. -/
theorem symbol_usable {H : List (List Byte × Int)} {name : List Byte} {x : Int} (hH : TableKnown H) (h : lookup name H = some x) (hn : name ∉ predefined.map Prod.snd) :
    symbolIn H name = x ∧ startScope x ∧ ¬ Reserved x ∧ ¬ Keyword x ∧ x ≠ c_symbol_set_x ∧ ¬ SpecialForm x ∧ x ∉ formNames ∧ x ≠ c_symbol_primitive_load ∧ x ≠ c_symbol_begin := by
  have hx := (hH.new name x h).resolve_left hn
  simp only [c_symbol_max] at hx
  refine ⟨by simp [symbolIn, h], ?_, ?_, ?_, ?_, ?_, ?_, ?_, ?_⟩ <;>
    simp only [startScope, Reserved, Keyword, SpecialForm, formNames, c_symbol_program, c_symbol_module, c_symbol_hashq_table, c_symbol_primitive_load, c_symbol_begin, c_symbol_set_x, c_symbol_lambda, c_symbol_define, c_symbol_define_macro, c_symbol_quote, c_symbol_if, c_symbol_boot_module, c_symbol_current_module, c_symbol_call_with_current_continuation, c_symbol_call_with_values, c_symbol_pmatch_car, c_symbol_pmatch_cdr, c_vm_macro_expand, List.mem_cons, List.not_mem_nil, or_false] <;> omega

end Mes.Props
