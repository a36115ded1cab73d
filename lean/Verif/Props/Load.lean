import Verif.Props.Define
import Verif.Proof.LoadSample
import Verif.Proof.ProgramFail
/-
Property C58: expanding the variables of a program does not change its meaning (`expand_variable`, /repo/src/eval-apply.c:230-286).
Property C59: loading a program evaluates its forms one after the other (`begin_expand`, /repo/src/eval-apply.c:838-898, with
`macro_expand` 724-816).
-/
namespace Mes.Props
open Res Spec

variable {mes : Bool} {d : Nat} {σ σ' : Store} {v : Value} {K : Calls} {δ : Int → Int → List Value → Value → Prop} {W : Ghost} {s : St}
  {N : Idents} {L : List Int} {f : Toplevel} {fs : List Toplevel}

/-! ### C58 -/

/-- Expanding the variables of the form in `R1` gives the memory `s'`. -/
def ExpandsTo (s s' : St) : Prop := ∃ F, ∀ fuel, F ≤ fuel → expandVariable fuel s s.r1 c_nil true = ok s'

/-- C58: the value of a form is the same after its variables have been expanded. -/
def C58_full : Prop :=
  ∀ d σ f v σ', EvalForm true Computes d σ f v σ' → ∀ W s s' N L, AtSource s W true N σ f L → ExpandsTo s s' →
    OnlyGives builtins s' (Result s' true v σ')

/-- `(if (- x) ((lambda (x) x) 5))`, where `(x)` is the same pair in both places, and a program with this form only. -/
def sharedCode : List Cell :=
  [pair c_symbol_if 222, pair 224 223, pair 226 c_nil, pair y_minus 225, pair y_x c_nil, pair 227 230,
   pair c_symbol_lambda 228, pair 229 225, pair y_x c_nil, pair 231 c_nil, num 5, pair 221 c_nil]

def sharedExpr : Expr := .ifOnly (.app (.var y_minus) [.var y_x]) (.app (.lam [y_x] none [.var y_x]) [.const (.int 5)])
def sharedPairs : List Int := [221, 222, 224, 225, 223, 226, 227, 228, 225, 230]

theorem shared_high : ∀ a ∈ sharedPairs, 221 ≤ a ∧ a < 221 + (sharedCode.length : Int) := by decide

/-- A pair of the program. -/
macro "src_pair" : tactic => `(tactic| exact ⟨by decide, by decide, rfl, by decide⟩)

theorem load_var (code : List Cell) (hL : ∀ a ∈ L, 221 ≤ a) {N : Idents} {x : Int}
    (h : x ∈ [y_f, y_n, y_a, y_eq, y_minus, y_plus, y_x]) (hN : N x) : IsSource (loadMem 0 code 0) (loadGhost L) mes N x (.var x) [] := by
  refine .var (load_name 0 code 0 hL ?_) hN ?_ ?_ ?_ <;>
  · simp only [List.mem_cons, List.not_mem_nil, or_false] at h
    rcases h with rfl | rfl | rfl | rfl | rfl | rfl | rfl <;> (try unfold Keyword) <;> decide

set_option maxRecDepth 4000 in
theorem shared_source : IsSource (loadMem 0 sharedCode 0) (loadGhost sharedPairs) true loadNames 221 sharedExpr sharedPairs := by
  have hL : ∀ a ∈ sharedPairs, 221 ≤ a := fun a ha => (shared_high a ha).1
  have hx : IsSource (loadMem 0 sharedCode 0) (loadGhost sharedPairs) true loadNames y_x (.var y_x) [] := load_var _ hL (by decide) (by decide)
  have hx' : IsSource (loadMem 0 sharedCode 0) (loadGhost sharedPairs) true (loadNames.under [y_x] none) y_x (.var y_x) [] := load_var _ hL (by decide) (by decide)
  have hm : IsSource (loadMem 0 sharedCode 0) (loadGhost sharedPairs) true loadNames y_minus (.var y_minus) [] := load_var _ hL (by decide) (by decide)
  have h1 : IsSource (loadMem 0 sharedCode 0) (loadGhost sharedPairs) true loadNames 224 (.app (.var y_minus) [.var y_x]) [224, 225] :=
    .app (L := []) (L' := [225]) (by src_pair) (by decide) hm (.cons (L := []) (L' := []) (by src_pair) hx (by decide) .nil) nofun
  have h2 : IsSource (loadMem 0 sharedCode 0) (loadGhost sharedPairs) true loadNames 227 (.lam [y_x] none [.var y_x]) [227, 228, 225] :=
    .lam (L := [225]) (by src_pair) rfl (by src_pair) (.cons ⟨by decide, by decide, rfl, by decide⟩ (by decide) rfl .nil)
      (.cons (L := []) (L' := []) (by src_pair) hx' (by decide) .nil) nofun
  have h3 : IsSource (loadMem 0 sharedCode 0) (loadGhost sharedPairs) true loadNames 226 (.app (.lam [y_x] none [.var y_x]) [.const (.int 5)]) [226, 227, 228, 225, 230] :=
    .app (L := [227, 228, 225]) (L' := [230]) (by src_pair) (by decide) h2
      (.cons (L := []) (L' := []) (by src_pair) (.const (.int ⟨by decide, rfl, rfl⟩ (by decide)) (by decide) (by decide)) (by decide) .nil) nofun
  exact .ifOnly (L := [222, 224, 225, 223, 226, 227, 228, 225, 230]) (by src_pair) rfl
    (.cons (L := [224, 225]) (L' := [223, 226, 227, 228, 225, 230]) (by src_pair) h1 (by decide)
      (.cons (L := [226, 227, 228, 225, 230]) (L' := []) (by src_pair) h3 (by decide) .nil))

theorem shared_value : Eval true Computes 3 (fun _ => none) progStore sharedExpr (.int 5) { progStore with vals := progStore.vals ++ [.int 5] } := by
  refine .ifTrue (w := .int (-7)) (σ₁ := progStore) ?_ nofun ?_
  · exact .app (fun _ => trivial) (.cons (.var (l := 3) rfl rfl) .nil) (.var (l := 1) rfl rfl) (.prim (.negate (word_small (by decide))))
  · exact .app (fun _ => trivial) (.cons (.const _) .nil) (.lam _ _ _) (.clo (ps := [.int 5]) rfl (.one (.var (l := 4) rfl rfl)))

/-- The expansion computed with the given fuel, and then the evaluation. -/
def expandAndRun (n F : Nat) (s : St) (P : St → Bool) : Bool :=
  match expandVariable F s s.r1 c_nil true with
  | ok s' => computes builtins n F s' P
  | _ => false

theorem runs_of_expand {n F : Nat} {P : St → Bool} (h : expandAndRun n F s P = true) :
    ∃ s', ExpandsTo s s' ∧ ∃ s'', Returns builtins s' s'' ∧ P s'' = true := by
  unfold expandAndRun at h
  generalize hr : expandVariable F s s.r1 c_nil true = r at h
  cases r with
  | ok s' =>
    refine ⟨s', ⟨F, fun fuel hf => ?_⟩, returns_of_computes builtins_fuel h⟩
    have := expandVariable_fuel hf (s := s) (x := s.r1) (y := c_nil) (b := true)
    rw [hr] at this
    exact this.eq nofun
  | _ => simp at h

theorem shared_runs : ∃ s', ExpandsTo { loadMem 100000 sharedCode 221 with r3 := c_vm_eval } s' ∧
    ∃ s'', Returns builtins s' s'' ∧ decide ((s''.cell s''.r1).cdr = 7) = true :=
  runs_of_expand (n := 200) (F := 100) (by decide +kernel)

/-- C58 does not hold when parts of the program share pairs, as the output of a macro may do: in
`(if (- x) ((lambda (x) x) 5))` with the same pair `(x)` in both places, this pair is expanded for the global variable, and the
procedure then returns the value of the global variable instead of its argument. -/
theorem C58_false : ¬ C58_full := by
  intro h
  obtain ⟨s', h1, s'', h2, h3⟩ := shared_runs
  have h := (h 3 progStore (.expr sharedExpr) _ _ (.expr shared_value) _ _ s' _ _ (source_at shared_high (fun _ h => h) (.expr shared_source)) h1).1 s'' h2
  obtain ⟨-, W', -, hv⟩ := h
  cases hv with
  | int hn _ => rw [hn.value] at h3; exact absurd h3 (by decide)

/-- C58 for programs in which all pairs are different, when the memory suffices.  `expand_variable` succeeds; it changes only the
cars of the pairs of the program, which become addresses of new cells; what is there afterwards still is the same form, and the
evaluator computes the same value of it as before the expansion. -/
theorem C58_value_partial (hK : Implements K.builtin mes δ) (h : EvalForm mes δ d σ f v σ') :
    ∃ k, ∀ W s N L, Ready s k d → AtSource s W mes N σ f L → L.Nodup → Evaluates K s (Result s mes v σ') ∧
      ∃ s', ExpandsTo s s' ∧ Expands s L s' (topCells f) ∧ Evaluates K s' (Result s' mes v σ') := by
  obtain ⟨k, hk⟩ := source hK h
  refine ⟨k + topCells f, fun W s N L hr ha hn => ?_⟩
  have hcur : ∀ a ∈ L, W.src a ∧ W.cur a := fun a m => ⟨(ha.form.bound a m).src, ha.cur a m⟩
  have value : ∀ W s, Ready s k d → AtSource s W mes N σ f L → Evaluates K s (Result s mes v σ') := by
    intro W s hr ha
    obtain ⟨W', s', y, gp, mp, r1, r2, -, r4, -, r6⟩ := hk W s N L hr ⟨ha.world, ha.scope, ha.top, ha.names, ha.forms, hn, ha.cur⟩ ha.form 0 none none
    exact evaluates_of ha.called rfl r1 r2 ⟨r2, W', r4, r6⟩
  refine ⟨value W s (hr.mono (by omega) (Nat.le_refl _)) ha, ?_⟩
  have kl := know_later (g := σ.globals) W s ha.world.glob
  have ht := ha.form.later kl fun a m => ⟨(hcur a m).1, rfl⟩
  have hw := know_world ha.world
  have hpre : ExpandPre mes σ (W.know σ.globals) s N L c_nil [] none (topCells f) :=
    { world := hw
      glob := rfl
      env := (ha.scope.later kl).whole
      formals := .nil
      free := fun x _ => ha.names x
      forms := fun x hx => ⟨(ha.forms x hx).1.later kl, (ha.forms x hx).2⟩
      nodup := hn
      cur := ha.cur
      room := hr.room.mono (by omega) }
  obtain ⟨F, s', a1, a2, a3⟩ := expand_top ht hpre
  have adv := a2.adv hw hcur
  have hw' := a2.world hw hcur fun a m => (ha.form.bound a m).tag
  refine ⟨s', ⟨F, a1⟩, a2, value (W.know σ.globals) s' (hr.keeps adv.keeps adv.later.le adv.free (by omega)) ?_⟩
  have hl := adv.later
  have hs := (ha.scope.later kl).later hl
  refine ⟨⟨by rw [a2.frame.r3]; exact ha.called.label, ?_⟩, hw', by rw [a2.frame.r1]; exact a3, by rw [a2.frame.r0]; exact hs, ?_, ha.names,
    fun x hx => ⟨((ha.forms x hx).1.later kl).later hl, (ha.forms x hx).2⟩, ha.cur⟩
  · rw [adv.keeps.sp, adv.keeps.stack _ (Int.le_refl _) (by omega)]; exact ha.called.frame
  · have hp := (ha.scope.later kl).pair
    rw [a2.frame.r0, hp.cell_eq hl, hl.car _ ha.scope.valid.2 ha.scope.tag ha.scope.src]
    exact ha.top

/-! ### The program of the examples -/

/-- `(begin (define x 3) (define (f n) (+ n x))) (f 4)` -/
def loadCode : List Cell :=
  [pair 223 222, pair 238 c_nil, pair c_symbol_begin 224, pair 226 225, pair 230 c_nil,
   pair c_symbol_define 227, pair y_x 228, pair 229 c_nil, num 3,
   pair c_symbol_define 231, pair 232 234, pair y_f 233, pair y_n c_nil, pair 235 c_nil, pair y_plus 236, pair y_n 237, pair y_x c_nil,
   pair y_f 239, pair 240 c_nil, num 4]

def sumExpr : Expr := .app (.var y_plus) [.var y_n, .var y_x]
def loadForms : List Toplevel :=
  [.define y_x (.const (.int 3)), .define y_f (.lam [y_n] none [sumExpr]), .expr (.app (.var y_f) [.const (.int 4)])]

def loadPairs : List Int := [226, 227, 228, 230, 231, 234, 235, 236, 237, 238, 239]

theorem loadPairs_high : ∀ a ∈ loadPairs, 221 ≤ a ∧ a < 221 + (loadCode.length : Int) := by decide

theorem loadPairs_ge : ∀ a ∈ loadPairs, 221 ≤ a := fun a ha => (loadPairs_high a ha).1

set_option maxRecDepth 4000 in
theorem load_define : IsTop (loadMem 0 loadCode 0) (loadGhost loadPairs) mes loadNames 226 (.define y_x (.const (.int 3))) [226, 227, 228] :=
  .define (L := [228]) (by src_pair) rfl (by src_pair) rfl (load_name _ _ _ loadPairs_ge (by decide)) (by decide) (by decide)
    (.inr (.cons (L := []) (L' := []) (by src_pair) (.const (.int ⟨by decide, rfl, rfl⟩ (by decide)) (by decide) (by decide)) (by decide) .nil))

set_option maxRecDepth 4000 in
theorem load_sum : IsSource (loadMem 0 loadCode 0) (loadGhost loadPairs) mes (loadNames.under [y_n] none) 235 sumExpr [235, 236, 237] :=
  .app (L := []) (L' := [236, 237]) (by src_pair) (by decide) (load_var _ loadPairs_ge (by decide) (by decide))
    (.cons (L := []) (L' := [237]) (by src_pair) (load_var _ loadPairs_ge (by decide) (by decide)) (by decide)
      (.cons (L := []) (L' := []) (by src_pair) (load_var _ loadPairs_ge (by decide) (by decide)) (by decide) .nil)) (fun _ => trivial)

set_option maxRecDepth 4000 in
theorem load_function : IsTop (loadMem 0 loadCode 0) (loadGhost loadPairs) mes loadNames 230 (.define y_f (.lam [y_n] none [sumExpr]))
    [230, 231, 234, 235, 236, 237] :=
  .function (L := [234, 235, 236, 237]) (by src_pair) rfl (by src_pair) rfl ⟨by decide, by decide, rfl, by decide⟩ rfl
    (load_name _ _ _ loadPairs_ge (by decide)) (by decide) (by decide)
    (.cons ⟨by decide, by decide, rfl, by decide⟩ (by decide) rfl .nil)
    (.cons (L := [235, 236, 237]) (L' := []) (by src_pair) load_sum (by decide) .nil) nofun

set_option maxRecDepth 4000 in
theorem load_call : IsTop (loadMem 0 loadCode 0) (loadGhost loadPairs) mes loadNames 238 (.expr (.app (.var y_f) [.const (.int 4)])) [238, 239] :=
  .expr (.app (L := []) (L' := [239]) (by src_pair) (by decide) (load_var _ loadPairs_ge (by decide) (by decide))
    (.cons (L := []) (L' := []) (by src_pair) (.const (.int ⟨by decide, rfl, rfl⟩ (by decide)) (by decide) (by decide)) (by decide) .nil) (fun _ => trivial))

set_option maxRecDepth 4000 in
theorem load_program : IsProgram (loadMem 0 loadCode 0) (loadGhost loadPairs) mes loadNames 221 loadForms loadPairs :=
  .block (q := 224) (fs := [.define y_f (.lam [y_n] none [sumExpr])]) (L := [226, 227, 228]) (L' := [230, 231, 234, 235, 236, 237]) (L'' := [238, 239])
    ⟨by decide, by decide, rfl, by decide⟩ ⟨by decide, by decide, rfl, by decide⟩ rfl rfl ⟨by decide, by decide, rfl, by decide⟩ load_define (by decide)
    (.form (L := [230, 231, 234, 235, 236, 237]) (L' := []) ⟨by decide, by decide, rfl, by decide⟩ load_function (by decide) (by decide) .nil)
    (.form (L := [238, 239]) (L' := []) ⟨by decide, by decide, rfl, by decide⟩ load_call (by decide) (by decide) .nil)

/-- The variables after the definitions, and after the call. -/
def loadedStore : Store where
  vals := [.prim (-1) 198, .prim (-1) 199, .prim (-1) 200, .int 3, .clo [y_n] none [sumExpr] fun _ => none]
  globals x := if x = y_f then some 4 else progStore.globals x

theorem load_value : Loads mes Computes 4 progStore (.obj c_unspecified) loadForms (.int 7) { loadedStore with vals := loadedStore.vals ++ [.int 4] } := by
  refine .cons (v₂ := .obj c_unspecified) (.define (.const _)) (.cons (v₂ := .obj c_unspecified) (σ₂ := loadedStore) (.define (.lam _ _ _)) (.cons (.expr ?_) .nil))
  refine .app (fun _ => trivial) (.cons (.const _) .nil) (.var (l := 4) rfl rfl) (.clo (ps := [.int 4]) rfl (.one ?_))
  refine .app (fun _ => trivial) (.cons (.var (l := 5) rfl rfl) (.cons (.var (l := 3) rfl rfl) .nil)) (.var (l := 2) rfl rfl) (.prim ?_)
  exact plus_two (word_small (by decide)) (word_small (by decide))

example : AtSource { loadMem 100000 loadCode 230 with r3 := c_vm_eval } ((loadGhost loadPairs).now loadPairs) mes loadNames progStore
      (.define y_f (.lam [y_n] none [sumExpr])) [230, 231, 234, 235, 236, 237] ∧ [230, 231, 234, 235, 236, (237 : Int)].Nodup ∧
    EvalForm mes Computes 1 progStore (.define y_f (.lam [y_n] none [sumExpr])) (.obj c_unspecified)
      ⟨progStore.vals ++ [.clo [y_n] none [sumExpr] fun _ => none], fun x => if x = y_f then some 4 else progStore.globals x⟩ ∧
    Implements builtins.builtin mes Computes :=
  ⟨source_at loadPairs_high (by decide) load_function, by decide, .define (.lam _ _ _), implements_builtins⟩

/-! ### C59 -/

/-- C59: loading a program evaluates its forms one after the other; the result is the value of the last one. -/
def C59_full : Prop :=
  ∀ d σ fs v σ', Loads true Computes d σ (.obj c_unspecified) fs v σ' → ∀ W s N n L, AtProgram s W true n N σ fs L →
    OnlyGives builtins s (Result s true v σ')

theorem shared_loads : ∃ s', Returns builtins (loadMem 100000 sharedCode 232) s' ∧ decide ((s'.cell s'.r1).cdr = 7) = true :=
  returns_of_computes (n := 300) (F := 100) builtins_fuel (by decide +kernel)

set_option maxRecDepth 4000 in
theorem C59_false : ¬ C59_full := by
  intro h
  obtain ⟨s', h2, h3⟩ := shared_loads
  have hp : IsProgram (loadMem 0 sharedCode 0) (loadGhost sharedPairs) true loadNames 232 [.expr sharedExpr] sharedPairs :=
    .form (L := sharedPairs) (L' := []) ⟨by decide, by decide, rfl, by decide⟩ (.expr shared_source) (by decide) (by decide) .nil
  have h := (h 3 progStore _ _ _ (.cons (.expr shared_value) .nil) _ _ _ _ _ (load_at shared_high hp)).1 s' h2
  obtain ⟨-, W', -, hv⟩ := h
  cases hv with
  | int hn _ => rw [hn.value] at h3; exact absurd h3 (by decide)

/-- C59 for programs in which all pairs are different, that use no macros, and when the memory suffices: each form is
looked through for macros, its variables are expanded, and it is evaluated with the variables that the forms before it left.  The
forms of a `(begin …)` at top level count as forms of the program. -/
theorem C59_load_partial (hK : Implements K.builtin mes δ) (h : Loads mes δ d σ (.obj c_unspecified) fs v σ') :
    ∃ k, ∀ W s N n L, Ready s k (max (programDepth fs) d + 1) → AtProgram s W mes n N σ fs L → L.Nodup → Evaluates K s (Result s mes v σ') := by
  obtain ⟨k, hk⟩ := load hK h
  refine ⟨k, fun W s N n L hr ha hn => ?_⟩
  obtain ⟨W', s', y, gp, mp, r1, r2, r3, r4⟩ := hk W s N n L hr ha.pre ha.program hn ha.fresh c_unspecified none none
    (isVal_unspecified ha.pre.free.macros.world)
  exact evaluates_of ha.called rfl (.trans (.one (v' := ⟨.beginExpandLoop, s, c_unspecified, none, none⟩) (fun q => q.elim) fun _ => rfl) r1) r2 ⟨r2, W', r3, r4⟩

/-- The same for programs that raise an error: the error is that of the first form that raises one; the forms before it are evaluated.
`T` are strings of the memory. -/
theorem C59_error_partial {ε : Int → Int → List Value → Key → Prop} {T : Int → Prop} {key : Key} (hK : Implements K.builtin mes δ) (hE : Raises K.builtin mes ε)
    (h : LoadFails mes δ ε T d σ fs key) :
    ∃ k, ∀ W s N n L, Ready s k (max (programDepth fs) d + 1) → AtProgram s W mes n N σ fs L → Strings s W T → L.Nodup → Errs K s key := by
  obtain ⟨k, hk⟩ := load_fails hK hE h
  refine ⟨k, fun W s N n L hr ha hT hn => errs_of ha.called rfl ?_⟩
  exact FailsAt.adv (hk W s N n L hr ha.pre hT ha.program hn ha.fresh) fun x gp mp =>
    ⟨c_unspecified, .one (fun q => q.elim) fun _ => rfl⟩

/-- The program is loaded. -/
example : AtProgram (loadMem 100000 loadCode 221) (loadGhost loadPairs) mes 1 loadNames progStore loadForms loadPairs ∧ loadPairs.Nodup ∧
    (∀ k : Nat, Ready (loadMem (221 + loadCode.length + k + 1000) loadCode 221) k 100) ∧ max (programDepth loadForms) 4 + 1 ≤ 100 ∧
    Loads mes Computes 4 progStore (.obj c_unspecified) loadForms (.int 7) { loadedStore with vals := loadedStore.vals ++ [.int 4] } ∧
    Implements builtins.builtin mes Computes :=
  ⟨load_at loadPairs_high load_program, by decide, fun k => load_ready _ _ k, by decide, load_value, implements_builtins⟩

/-- `(define x 3) (x)` raises an error in its second form. -/
def failCode : List Cell :=
  [pair 223 222, pair 227 c_nil, pair c_symbol_define 224, pair y_x 225, pair 226 c_nil, num 3, pair y_x c_nil]

def failForms : List Toplevel := [.define y_x (.const (.int 3)), .expr (.app (.var y_x) [])]

def failPairs : List Int := [223, 224, 225, 227]

theorem failPairs_high : ∀ a ∈ failPairs, 221 ≤ a ∧ a < 221 + (failCode.length : Int) := by decide

set_option maxRecDepth 4000 in
theorem fail_program : IsProgram (loadMem 0 failCode 0) (loadGhost failPairs) mes loadNames 221 failForms failPairs :=
  have hL : ∀ a ∈ failPairs, 221 ≤ a := fun a ha => (failPairs_high a ha).1
  .form (L := [223, 224, 225]) (L' := [227]) ⟨by decide, by decide, rfl, by decide⟩
    (.define (L := [225]) (by src_pair) rfl (by src_pair) rfl (load_name _ _ _ hL (by decide)) (by decide) (by decide)
      (.inr (.cons (L := []) (L' := []) (by src_pair) (.const (.int ⟨by decide, rfl, rfl⟩ (by decide)) (by decide) (by decide)) (by decide) .nil)))
    (by decide) (by decide)
    (.form (L := [227]) (L' := []) ⟨by decide, by decide, rfl, by decide⟩
      (.expr (.app (L := []) (L' := []) (by src_pair) (by decide) (load_var _ hL (by decide) (by decide)) .nil fun _ => trivial)) (by decide) (by decide) .nil)

theorem fail_fails : LoadFails mes Computes Rejects (fun _ => False) 3 progStore failForms .wrongTypeArg :=
  .tail (v := .obj c_unspecified) (.define (.const _)) (.head (.expr (.call (.var (l := 3) rfl rfl) .nil (.var (l := 3) rfl rfl) (.notProc trivial))))

example : AtProgram (loadMem 100000 failCode 221) (loadGhost failPairs) mes 1 loadNames progStore failForms failPairs ∧ failPairs.Nodup ∧
    (∀ k : Nat, Ready (loadMem (221 + failCode.length + k + 1000) failCode 221) k 100) ∧ max (programDepth failForms) 3 + 1 ≤ 100 ∧
    LoadFails mes Computes Rejects (fun _ => False) 3 progStore failForms .wrongTypeArg ∧ Raises builtins.builtin mes Rejects :=
  ⟨load_at failPairs_high fail_program, by decide, fun k => load_ready _ _ k, by decide, fail_fails, raises_builtins⟩

end Mes.Props
