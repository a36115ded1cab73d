import Verif.Props.Setup
import Verif.Props.Reader
/-
A program from its text to its answer.
-/
namespace Mes.Props
open Mes Mes.Spec Res

variable {junk : Int → Cell} {stack : Int → Int}

/-- `main` is ready for the text of this program, and `car` is the builtin with the number 141. -/
example : ∃ E s H σ W, mainSetup (gcInit ⟨20000, 0, 100, 1000, 64⟩ (fun _ => default) (fun _ => 0)) 500 200 (plainSetup true) = ok s ∧
    Reading E s (fileOf [40, 41]) H [40, 41] true ∧ BootPre E true σ W 100 startScope H s ∧ VarIs H σ (ascii ['c', 'a', 'r']) (.prim 1 141) := by
  obtain ⟨E, s, H, σ, W, h1, -, -, -, h2, h3, h4, -⟩ := C61_setup_partial (z := ⟨20000, 0, 100, 1000, 64⟩) (junk := fun _ => default) (stack := fun _ => 0)
    (o := plainSetup true) (fuel := 500) (more := 200) rfl (by unfold SetupTexts plainSetup; simp) (by decide) (by decide) (by decide) (by decide) (fileOf_input [40, 41])
  exact ⟨E, s, H, σ, W, h1, h2, h3, C61_names h4 rfl (ascii ['c', 'a', 'r'], 1, 141) (by decide)⟩

/-- `(define (f n) (+ n 1)) (f 41)` -/
def tinyText : List Byte :=
  [40, 100, 101, 102, 105, 110, 101, 32, 40, 102, 32, 110, 41, 32, 40, 43, 32, 110, 32, 49, 41, 41, 32, 40, 102, 32, 52, 49, 41]

def tinyData : List Datum :=
  [.list [.sym nameDefine, .list [.sym [102], .sym [110]], .list [.sym [43], .sym [110], .num 1]], .list [.sym [102], .num 41]]

theorem tiny_written : Program 64 tinyData tinyText := by
  have ident : ∀ name : List Byte, name ∈ [nameDefine, [102], [110], [43]] → Ident 64 name := by
    intro name h
    simp only [List.mem_cons, List.not_mem_nil, or_false] at h
    obtain rfl | rfl | rfl | rfl := h
    · exact { nonempty := by decide, chars := by decide, short := by decide, hash := by decide, nondigit := ⟨100, by decide, by decide⟩,
              sign := (by intro b d r e; cases e; decide), lead := by decide, first := by intro b r e; cases e; decide, dot := by intro r e; cases e }
    · exact { nonempty := by decide, chars := by decide, short := by decide, hash := by decide, nondigit := ⟨102, by decide, by decide⟩,
              sign := (by intro b d r e; cases e), lead := by decide, first := by intro b r e; cases e; decide, dot := by intro r e; cases e }
    · exact { nonempty := by decide, chars := by decide, short := by decide, hash := by decide, nondigit := ⟨110, by decide, by decide⟩,
              sign := (by intro b d r e; cases e), lead := by decide, first := by intro b r e; cases e; decide, dot := by intro r e; cases e }
    · exact { nonempty := by decide, chars := by decide, short := by decide, hash := by decide, nondigit := ⟨43, by decide, by decide⟩,
              sign := (by intro b d r e; cases e), lead := by decide, first := by intro b r e; cases e; decide, dot := by intro r e; cases e }
  have sp : Space [32] := .white (by decide) .none
  have close : Written 64 (.tail .nil) [41] := .close (w := []) .none
  have n : ∀ r, Ends r → ∀ d, Written 64 (.tail d) r → Written 64 (.tail (.pair (.sym [110]) d)) ([32] ++ [] ++ [110] ++ r) :=
    fun r hr d h => .element sp .noGap (.inl rfl) (.sym (ident _ (by decide))) (fun _ => hr) h
  have one : Written 64 (.datum (.num 1) true) [49] := .num (ds := [49]) none (by decide) (by decide) (by decide) (by decide)
  have big : Written 64 (.datum (.num 41) true) [52, 49] := .num (ds := [52, 49]) none (by decide) (by decide) (by decide) (by decide)
  have h1 : Written 64 (.datum (.list [.sym [102], .sym [110]]) false) [40, 102, 32, 110, 41] :=
    .list (.element (w := []) (g := []) (t := [102]) .none .noGap (.inl rfl) (.sym (ident _ (by decide))) (fun _ => by decide) (n [41] (by decide) _ close))
  have h2 : Written 64 (.datum (.list [.sym [43], .sym [110], .num 1]) false) [40, 43, 32, 110, 32, 49, 41] :=
    .list (.element (w := []) (g := []) (t := [43]) .none .noGap (.inl rfl) (.sym (ident _ (by decide))) (fun _ => by decide)
      (n [32, 49, 41] (by decide) _ (.element (w := [32]) (g := []) (t := [49]) sp .noGap (.inl rfl) one (fun _ => by decide) close)))
  have h3 : Written 64 (.datum (.list [.sym [102], .num 41]) false) [40, 102, 32, 52, 49, 41] :=
    .list (.element (w := []) (g := []) (t := [102]) .none .noGap (.inl rfl) (.sym (ident _ (by decide))) (fun _ => by decide)
      (.element (w := [32]) (g := []) (t := [52, 49]) sp .noGap (.inl rfl) big (fun _ => by decide) close))
  have h4 : Written 64 (.datum (.list [.sym nameDefine, .list [.sym [102], .sym [110]], .list [.sym [43], .sym [110], .num 1]]) false)
      [40, 100, 101, 102, 105, 110, 101, 32, 40, 102, 32, 110, 41, 32, 40, 43, 32, 110, 32, 49, 41, 41] :=
    .list (.element (w := []) (g := []) (t := nameDefine) .none .noGap (.inl rfl) (.sym (ident _ (by decide))) (fun _ => by decide)
      (.element (w := [32]) (g := []) (t := [40, 102, 32, 110, 41]) sp .noGap (.inl rfl) h1 (by simp)
        (.element (w := [32]) (g := []) (t := [40, 43, 32, 110, 32, 49, 41]) sp .noGap (.inl rfl) h2 (by simp) close)))
  exact .more (g := []) .noGap h4 (by simp) (.more (g := [32]) (.blank (by decide) .noGap) h3 (by simp) (.done .noGap))

theorem means_symbol {ν : List Byte → Int} {name : List Byte} {x : Int} (e : ν name = x) (h1 : startScope x) (h2 : ¬ Reserved x) (h3 : ¬ Keyword x)
    (h4 : x ≠ c_symbol_set_x) : Means ν true startScope (.sym name) (.var x) := by
  subst e
  exact .var h1 h2 h3 h4

/-- When `main` reads the text `(define (f n) (+ n 1)) (f 41)` the answer is 42, in any memory that is large enough. -/
theorem tiny_answer : ∃ (d : Nat) (k : Nat) (σ' : Store), ∀ z : Sizes, z.maxString = 64 → 0 ≤ z.safety → (k : Int) + z.safety ≤ z.arena → 5 * (d : Int) ≤ z.stack →
    ∃ s0 s1 w1, mainSetup (gcInit z junk stack) 500 200 (plainSetup true) = ok s0 ∧ mainRead 500 60 3 s0 (fileOf tinyText) = ok (s1, w1) ∧
      Evaluates builtins s1 (Result s1 true (.int 42) σ') := by
  obtain ⟨H, σ, hH, hu, hb, ho, h⟩ := C61_run_partial (o := plainSetup true) (fuel := 500) (more := 200) (fuel' := 60) (more' := 3) (junk := junk) (stack := stack) rfl
    (by unfold SetupTexts plainSetup; simp) (by decide) (by decide) (by decide) (fileOf_input tinyText) tiny_written (by simp [tinyData, Datum.list]) (by decide) (by decide) (by decide)
  obtain ⟨xf, ef⟩ := hu [102] (.cdr (.car (.car .here)))
  obtain ⟨xn, en⟩ := hu [110] (.car (.cdr (.car (.cdr (.car .here)))))
  obtain ⟨xp, lp, ep, gp, vp⟩ := hb ([43], -1, 200) (by decide +kernel)
  obtain ⟨f1, f2, f3, f4, f5, f6, f7, f8, f9⟩ := symbol_usable hH ef (by decide +kernel)
  obtain ⟨n1, n2, n3, n4, n5, n6, n7, n8, n9⟩ := symbol_usable hH en (by decide +kernel)
  obtain ⟨p1, p2, p3, p4, p5, p6, p7, p8, p9⟩ := symbol_usable hH ep (by decide +kernel)
  change symbolIn H [43] = xp at p1
  have hfn : xf ≠ xn := fun e => by have := hH.inj _ _ _ ef (e ▸ en); cases this
  have hpn : xp ≠ xn := fun e => by have := hH.inj _ _ _ ep (e ▸ en); cases this
  have hpf : xp ≠ xf := fun e => by have := hH.inj _ _ _ ep (e ▸ ef); cases this
  have hg : σ.globals xf = none := by
    cases e : σ.globals xf with
    | none => rfl
    | some l =>
      obtain ⟨name, hn, hl⟩ := ho _ _ e
      have := hH.inj _ _ _ hl ef
      subst this
      exact absurd hn (by decide +kernel)
  have plus : Means (symbolIn H) true startScope (.sym [43]) (.var xp) := means_symbol p1 p2 p3 p4 p5
  have varf : Means (symbolIn H) true startScope (.sym [102]) (.var xf) := means_symbol f1 f2 f3 f4 f5
  have varn : Means (symbolIn H) true startScope (.sym [110]) (.var xn) := means_symbol n1 n2 n3 n4 n5
  have body : Means (symbolIn H) true startScope (.list [.sym [43], .sym [110], .num 1]) (.app (.var xp) [.var xn, .const (.int 1)]) :=
    .app (by intro name e; cases e; rwa [p1]) plus (.cons varn (show ((1:Nat):Int) ≠ c_symbol_primitive_load by decide) (.cons (.num 1) trivial .nil)) (by simp)
  have call : Means (symbolIn H) true startScope (.list [.sym [102], .num 41]) (.app (.var xf) [.const (.int 41)]) :=
    .app (by intro name e; cases e; rwa [f1]) varf (.cons (.num 41) trivial .nil) (by simp)
  have params : IsParams (symbolIn H) startScope (.list [.sym [110]]) [xn] none := by
    have := IsParams.cons (ν := symbolIn H) (N := startScope) (name := [110]) (by rw [n1]; exact n2) .nil; rwa [n1] at this
  have hdef : symbolIn H nameDefine = c_symbol_define := hH.naming.define
  have def1 : MeansTop (symbolIn H) true startScope (.list [.sym nameDefine, .list [.sym [102], .sym [110]], .list [.sym [43], .sym [110], .num 1]])
      (.define xf (.lam [xn] none [.app (.var xp) [.var xn, .const (.int 1)]])) := by
    have := MeansTop.function (name := [102]) (mes := true) (by rw [f1]; exact f2) (by rw [f1]; exact f7) params
      (.cons body (show symbolIn H [43] ≠ _ by rw [p1]; exact p8) .nil) (by simp)
    rwa [f1] at this
  have prog : MeansProgram (symbolIn H) true startScope tinyData
      [.define xf (.lam [xn] none [.app (.var xp) [.var xn, .const (.int 1)]]), .expr (.app (.var xf) [.const (.int 41)])] :=
    .form def1 (show symbolIn H nameDefine ≠ _ by rw [hdef]; decide) (by intro name d' e; cases e; rw [hdef]; decide)
      (.form (.expr call) (show symbolIn H [102] ≠ _ by rw [f1]; exact f8) (by intro name d' e; cases e; rwa [f1]) .nil)
  obtain ⟨σ', hl⟩ : ∃ σ', Loads true Computes 5 σ (.obj c_unspecified)
      [.define xf (.lam [xn] none [.app (.var xp) [.var xn, .const (.int 1)]]), .expr (.app (.var xf) [.const (.int 41)])] (.int 42) σ' := by
    have hd : σ.declare xf = (σ.vals.length, ⟨σ.vals ++ [.obj c_f], fun y => if y = xf then some σ.vals.length else σ.globals y⟩) := by
      simp only [Store.declare, hg]
    have hp : lp < σ.vals.length := (List.getElem?_eq_some_iff.1 vp).1
    let clo : Value := .clo [xn] none [.app (.var xp) [.var xn, .const (.int 1)]] (fun _ => none)
    let σ₁ : Store := ⟨(σ.vals ++ [Value.obj c_f]).set σ.vals.length clo, fun y => if y = xf then some σ.vals.length else σ.globals y⟩
    have e1 : EvalForm true Computes 5 σ (.define xf (.lam [xn] none [.app (.var xp) [.var xn, .const (.int 1)]])) (.obj c_unspecified) σ₁ := by
      have := EvalForm.define (mes := true) (δ := Computes) (d := 4) (σ := σ) (x := xf) (.lam [xn] none [.app (.var xp) [.var xn, .const (.int 1)]])
      rw [hd] at this
      exact this
    have hl1 : σ₁.vals.length = σ.vals.length + 1 := by simp [σ₁]
    have hp1 : σ₁.vals[lp]? = some (.prim (-1) 200) := by
      simp only [σ₁]
      rw [List.getElem?_set_ne (by omega), List.getElem?_append_left hp]
      exact vp
    let σ₂ : Store := { σ₁ with vals := σ₁.vals ++ [.int 41] }
    let ρ : Locals := bindAll [xn] σ₁.vals.length (fun _ => none)
    have e2 : Eval true Computes 5 ρ σ₂ (.app (.var xp) [.var xn, .const (.int 1)]) (.int 42) σ₂ := by
      refine .app (fun _ => trivial) (.cons (.var (l := σ₁.vals.length) (v := .int 41) ?_ ?_) (.cons (.const (.int 1)) .nil)) (.var (l := lp) (v := .prim (-1) 200) ?_ ?_)
        (.prim (.plus (ns := [41, 1]) ?_))
      · simp [σ₂, ρ, Store.find, bindAll]
      · simp [σ₂]
      · simp [σ₂, σ₁, ρ, Store.find, bindAll, hpn, hpf, gp]
      · simp only [σ₂]
        rw [List.getElem?_append_left (by omega)]
        exact hp1
      · intro k
        match k with
        | 0 => simp [Word]
        | 1 => simp [Word]
        | k + 2 => simp [Word]
    have e3 : Eval true Computes 5 (fun _ => none) σ₁ (.app (.var xf) [.const (.int 41)]) (.int 42) σ₂ := by
      refine .app (fun _ => trivial) (.cons (.const (.int 41)) .nil) (.var (l := σ.vals.length) (v := clo) ?_ ?_) (.clo (ps := [.int 41]) rfl (.one e2))
      · simp [σ₁, Store.find]
      · simp [σ₁]
    exact ⟨σ₂, .cons e1 (.cons (.expr e3) .nil)⟩
  obtain ⟨k, hk⟩ := h _ _ _ _ prog hl
  refine ⟨max (programDepth [.define xf (.lam [xn] none [.app (.var xp) [.var xn, .const (.int 1)]]), .expr (.app (.var xf) [.const (.int 41)])]) 5 + 1 + 1, setupCells (plainSetup true) + textRoom tinyText.length + k, σ', fun z e1 e2 e3 e4 => ?_⟩
  obtain ⟨s0, s1, w1, q1, -, q2, q3⟩ := hk z e1 e2 e3 e4
  exact ⟨s0, s1, w1, q1, q2, q3⟩

/-- `(f 41)` -/
def strayText : List Byte := [40, 102, 32, 52, 49, 41]

def strayData : List Datum := [.list [.sym [102], .num 41]]

theorem stray_written : Program 64 strayData strayText := by
  have sp : Space [32] := .white (by decide) .none
  have name : Ident 64 [102] :=
    { nonempty := by decide, chars := by decide, short := by decide, hash := by decide, nondigit := ⟨102, by decide, by decide⟩,
      sign := (by intro b d r e; cases e), lead := by decide, first := by intro b r e; cases e; decide, dot := by intro r e; cases e }
  have big : Written 64 (.datum (.num 41) true) [52, 49] := .num (ds := [52, 49]) none (by decide) (by decide) (by decide) (by decide)
  have h : Written 64 (.datum (.list [.sym [102], .num 41]) false) [40, 102, 32, 52, 49, 41] :=
    .list (.element (w := []) (g := []) (t := [102]) .none .noGap (.inl rfl) (.sym name) (fun _ => by decide)
      (.element (w := [32]) (g := []) (t := [52, 49]) sp .noGap (.inl rfl) big (fun _ => by decide) (.close (w := []) .none)))
  exact .more (g := []) .noGap h (by simp) (.done .noGap)

/-- When `main` reads the text `(f 41)` the answer is an error, in any memory that is large enough. -/
theorem stray_answer : ∃ (d : Nat) (k : Nat), ∀ z : Sizes, z.maxString = 64 → 0 ≤ z.safety → (k : Int) + z.safety ≤ z.arena → 5 * (d : Int) ≤ z.stack →
    ∃ s0 s1 w1, mainSetup (gcInit z junk stack) 500 200 (plainSetup true) = ok s0 ∧ mainRead 500 60 3 s0 (fileOf strayText) = ok (s1, w1) ∧
      Errs builtins s1 .unboundVariable := by
  obtain ⟨H, σ, hH, hu, hb, ho, h⟩ := C61_error_partial (o := plainSetup true) (fuel := 500) (more := 200) (fuel' := 60) (more' := 3) (junk := junk) (stack := stack) rfl
    (by unfold SetupTexts plainSetup; simp) (by decide) (by decide) (by decide) (fileOf_input strayText) stray_written (by simp [strayData, Datum.list]) (by decide) (by decide) (by decide)
  obtain ⟨xf, ef⟩ := hu [102] (.car (.car .here))
  obtain ⟨f1, f2, f3, f4, f5, f6, f7, f8, f9⟩ := symbol_usable hH ef (by decide +kernel)
  have hg : σ.globals xf = none := by
    cases e : σ.globals xf with
    | none => rfl
    | some l =>
      obtain ⟨name, hn, hl⟩ := ho _ _ e
      have := hH.inj _ _ _ hl ef
      subst this
      exact absurd hn (by decide +kernel)
  have call : Means (symbolIn H) true startScope (.list [.sym [102], .num 41]) (.app (.var xf) [.const (.int 41)]) :=
    .app (by intro name e; cases e; rwa [f1]) (means_symbol f1 f2 f3 f4 f5) (.cons (.num 41) trivial .nil) (by simp)
  have prog : MeansProgram (symbolIn H) true startScope strayData [.expr (.app (.var xf) [.const (.int 41)])] :=
    .form (.expr call) (show symbolIn H [102] ≠ _ by rw [f1]; exact f8) (by intro name d' e; cases e; rwa [f1]) .nil
  obtain ⟨k, hk⟩ := h _ 1 _ prog (.head (.expr (.operator (.var (by simp [Store.find, hg])))))
  refine ⟨max (programDepth [.expr (.app (.var xf) [.const (.int 41)])]) 1 + 1 + 1, setupCells (plainSetup true) + textRoom strayText.length + k, fun z e1 e2 e3 e4 => ?_⟩
  obtain ⟨s0, s1, w1, q1, -, q2, q3⟩ := hk z e1 e2 e3 e4
  exact ⟨s0, s1, w1, q1, q2, q3⟩

end Mes.Props
