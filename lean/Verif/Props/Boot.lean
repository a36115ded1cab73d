import Verif.Props.Load
import Verif.Proof.Boot
/-
Property C60: `main` reads the text of a program and evaluates the forms that the text stands for (/repo/src/mes.c:151-157,
198-211, with the reader, `begin_expand` and the evaluator).
-/
namespace Mes.Props
open Res Spec

variable {mes : Bool} {d : Nat} {σ σ' : Store} {v : Value} {K : Calls} {δ : Int → Int → List Value → Value → Prop}
  {fs : List Toplevel} {ν : List Byte → Int} {E : Env} {ds : List Datum} {t : List Byte} {M : Int → Prop}

/-- C60: when `main` has read the program, whatever the evaluation gives is the value of its last form, and the variables are as
the program leaves them.  `ν` gives the symbol of each name. -/
def C60_full : Prop :=
  ∀ E ν ds t M d σ fs v σ', Naming ν → Program E.mx ds t → MeansProgram ν true M ds fs →
    Loads true Computes d σ (.obj c_unspecified) fs v σ' → ∀ s w H W n clear, BootPre E true σ W n M H s →
    Reading E s w H t clear → ∀ fuel more x s' w' H' s1 w1, readAll E.k fuel more s w = ok (x, s', w') → Reading E s' w' H' [] false →
    (∀ name, (Datum.list ds).Uses name → lookup name H' = some (ν name)) → mainRead E.k fuel more s w = ok (s1, w1) →
    OnlyGives builtins s1 (Result s1 true v σ')

/-- C60 for texts without empty lists at top level, when the memory suffices for the text and its evaluation, and when no name of
the program is the name of a macro: `main` reads the program, and its evaluation gives the value of the last form and leaves the
variables as the program does. -/
theorem C60_main_partial (hK : Implements K.builtin mes δ) (hν : Naming ν) (hm : 45 ≤ E.mx) (hp : Program E.mx ds t)
    (hn : ∀ d ∈ ds, d ≠ .nil) (hmean : MeansProgram ν mes M ds fs) (hl : Loads mes δ d σ (.obj c_unspecified) fs v σ') :
    ∃ k, ∀ s w H W n clear fuel more, BootPre E mes σ W n M H s → Reading E s w H t clear →
      BootRoom E s t.length k (max (programDepth fs) d + 1) → 2 * t.length + 2 ≤ fuel → H.length + t.length < E.k → ds.length < more →
      ∃ x s' w' H' s1 w1, readAll E.k fuel more s w = ok (x, s', w') ∧ Reading E s' w' H' [] false ∧ Grown H H' ∧
        mainRead E.k fuel more s w = ok (s1, w1) ∧
        ((∀ name, (Datum.list ds).Uses name → lookup name H' = some (ν name)) → Evaluates K s1 (Result s1 mes v σ')) := by
  obtain ⟨k, hk⟩ := C59_load_partial hK hl
  refine ⟨k, fun s w H W n clear fuel more hb h hr hf hkk hd => ?_⟩
  obtain ⟨x, s', w', H', r1, r2, r3, s1, w1, r4, r5⟩ := mainRead_at hν hm hp hn hmean hb h hr hf hkk hd
  refine ⟨x, s', w', H', s1, w1, r1, r2, r3, r4, fun hu => ?_⟩
  obtain ⟨hrd, W', L, ha, hL⟩ := r5 hu
  exact hk W' s1 _ n L hrd ha hL

/-- The same when the symbols of the program are in the symbol table from the start. -/
theorem C60_known_partial (hK : Implements K.builtin mes δ) (hν : Naming ν) (hm : 45 ≤ E.mx) (hp : Program E.mx ds t)
    (hn : ∀ d ∈ ds, d ≠ .nil) (hmean : MeansProgram ν mes M ds fs) (hl : Loads mes δ d σ (.obj c_unspecified) fs v σ') :
    ∃ k, ∀ s w H W n clear fuel more, BootPre E mes σ W n M H s → Reading E s w H t clear →
      BootRoom E s t.length k (max (programDepth fs) d + 1) → 2 * t.length + 2 ≤ fuel → H.length + t.length < E.k → ds.length < more →
      (∀ name, (Datum.list ds).Uses name → name ≠ [35, 102] ∧ lookup name H = some (ν name)) →
      ∃ s1 w1, mainRead E.k fuel more s w = ok (s1, w1) ∧ Evaluates K s1 (Result s1 mes v σ') := by
  obtain ⟨k, hk⟩ := C60_main_partial hK hν hm hp hn hmean hl
  refine ⟨k, fun s w H W n clear fuel more hb h hr hf hkk hd hu => ?_⟩
  obtain ⟨x, s', w', H', s1, w1, r1, r2, r3, r4, r5⟩ := hk s w H W n clear fuel more hb h hr hf hkk hd
  exact ⟨s1, w1, r4, r5 fun name hx => r3 _ _ (hu name hx).1 (hu name hx).2⟩

/-- The same for programs that raise an error. -/
theorem C60_error_partial {ε : Int → Int → List Value → Key → Prop} {key : Key} (hK : Implements K.builtin mes δ) (hE : Raises K.builtin mes ε) (hν : Naming ν)
    (hm : 45 ≤ E.mx) (hp : Program E.mx ds t) (hn : ∀ d ∈ ds, d ≠ .nil) (hmean : MeansProgram ν mes M ds fs)
    (hl : LoadFails mes δ ε (fun _ => False) d σ fs key) :
    ∃ k, ∀ s w H W n clear fuel more, BootPre E mes σ W n M H s → Reading E s w H t clear →
      BootRoom E s t.length k (max (programDepth fs) d + 1) → 2 * t.length + 2 ≤ fuel → H.length + t.length < E.k → ds.length < more →
      ∃ x s' w' H' s1 w1, readAll E.k fuel more s w = ok (x, s', w') ∧ Reading E s' w' H' [] false ∧ Grown H H' ∧
        mainRead E.k fuel more s w = ok (s1, w1) ∧
        ((∀ name, (Datum.list ds).Uses name → lookup name H' = some (ν name)) → Errs K s1 key) := by
  obtain ⟨k, hk⟩ := C59_error_partial hK hE hl
  refine ⟨k, fun s w H W n clear fuel more hb h hr hf hkk hd => ?_⟩
  obtain ⟨x, s', w', H', r1, r2, r3, s1, w1, r4, r5⟩ := mainRead_at hν hm hp hn hmean hb h hr hf hkk hd
  refine ⟨x, s', w', H', s1, w1, r1, r2, r3, r4, fun hu => ?_⟩
  obtain ⟨hrd, W', L, ha, hL⟩ := r5 hu
  exact hk W' s1 _ n L hrd ha nofun hL

end Mes.Props
