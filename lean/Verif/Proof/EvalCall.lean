import Verif.Proof.EvalSim
/-
Calls: closures, builtins, and the evaluation of applications; the simulation theorem.
-/
namespace Mes
open Res Spec Gc

variable {mv : Prop} {K : Calls} {s s' s'' s1 : St} {W W' W1 : Ghost} {mes : Bool} {σ σ' σ₀ σ₁ σ₂ σ₃ : Store} {N : Idents} {ρ : Locals}
  {d k : Nat}

theorem formals_length {f : Int} {fs : List Int} {r : Option Int} {M : Int → Prop} (h : IsFormals s M f fs r)
    (hv : s.Valid c_nil ∧ (s.cell c_nil).tag = .special) :
    s.Valid f ∧ (s.cell f).tag ≠ .number ∧
    ∃ F, ∀ fuel, F ≤ fuel → ∀ n, lengthLoop s fuel n f = ok (if r = none then n + fs.length else -1) := by
  induction h with
  | nil =>
    refine ⟨hv.1, by rw [hv.2]; decide, 1, fun fuel hf n => ?_⟩
    obtain ⟨fuel, rfl⟩ : ∃ f, fuel = f + 1 := ⟨fuel - 1, by omega⟩
    simp [lengthLoop]
  | @rest x hx ht hm =>
    refine ⟨hx, by rw [ht]; decide, 1, fun fuel hf n => ?_⟩
    obtain ⟨fuel, rfl⟩ : ∃ f, fuel = f + 1 := ⟨fuel - 1, by omega⟩
    have hne : x ≠ c_nil := by rintro rfl; rw [hv.2] at ht; cases ht
    simp [lengthLoop, hne, St.rd_ok hx, ht]
  | @cons p xs r hp hvx hx _ ih =>
    obtain ⟨_, _, F, hF⟩ := ih
    refine ⟨hp.valid, by rw [hp.tag]; decide, F + 1, fun fuel hf n => ?_⟩
    obtain ⟨fuel, rfl⟩ : ∃ f, fuel = f + 1 := ⟨fuel - 1, by omega⟩
    simp only [lengthLoop, if_neg hp.ne, St.rd_ok hp.valid, ok_bind, hp.tag, ne_eq, not_true, if_false]
    rw [hF fuel (by omega)]
    split
    · simp only [List.length_cons]; congr 1; omega
    · rfl

theorem checkFormals_ok {f args : Int} {fs : List Int} {r : Option Int} {vs ps : List Value} (hf : IsFormals s W.chg f fs r)
    (ha : IsVals s W mes args vs) (hp : paramVals fs r vs = some ps) (hw : World s W mes σ) :
    ∃ F, ∀ fuel, F ≤ fuel → checkFormals s fuel f args = ok () := by
  obtain ⟨h1, h2, F1, h3⟩ := formals_length hf (World.nil hw)
  obtain ⟨F2, h4⟩ := vals_length ha
  refine ⟨max F1 F2, fun fuel hfu => ?_⟩
  simp only [checkFormals, St.rd_ok h1, ok_bind, if_neg h2, length__, h3 fuel (by omega), h4 fuel (by omega)]
  refine if_neg fun hc => ?_
  cases r with
  | none =>
    simp only [paramVals] at hp
    split at hp
    · rename_i he; exact hc.1 (by rw [he]; simp)
    · cases hp
  | some x => exact hc.2.2 (by simp)

theorem callLambda_ok {e x : Int} (hr : Room s 2) : ∃ s', callLambda s e x = ok s' ∧ Grow s s' ∧ SameStack s s' ∧ s'.free = s.free + 2 ∧
    s'.r1 = e ∧ s'.r0 = s.free + 1 ∧ s'.cell s.free = { tag := .pair, car := c_closure, cdr := x } ∧
    s'.cell (s.free + 1) = { tag := .pair, car := s.free, cdr := x } := by
  have e1 := push_ext s { tag := .pair, car := c_closure, cdr := x }
  have r1 : Room (s.push { tag := .pair, car := c_closure, cdr := x }) 1 := hr.step e1 (by simp; omega)
  have c1 : (s.push { tag := .pair, car := c_closure, cdr := x }).cell s.free = { tag := .pair, car := c_closure, cdr := x } := by simp
  have f1 : (s.push { tag := .pair, car := c_closure, cdr := x }).free = s.free + 1 := by simp
  unfold callLambda
  rw [cons_ok (hr.mono (by omega)), ok_bind]
  simp only []
  generalize s.push { tag := .pair, car := c_closure, cdr := x } = s1 at *
  have e2 := push_ext s1 { tag := .pair, car := s.free, cdr := x }
  have c2 : (s1.push { tag := .pair, car := s.free, cdr := x }).cell s1.free = { tag := .pair, car := s.free, cdr := x } := by simp
  have f2 : (s1.push { tag := .pair, car := s.free, cdr := x }).free = s1.free + 1 := by simp
  rw [cons_ok r1, ok_bind]
  simp only []
  generalize s1.push { tag := .pair, car := s.free, cdr := x } = s2 at *
  have e3 := e1.trans e2
  refine ⟨_, rfl, ⟨e3.le, e3.grow.same⟩, ⟨⟨e3.consts.m0, e3.consts.arena, e3.consts.safety, e3.consts.size, e3.consts.macros⟩, e3.keeps.sp, e3.keeps.stack⟩,
    by show s2.free = _; omega, rfl, f1, ?_, ?_⟩
  · show s2.cell s.free = _
    rw [e2.grow.same _ (by omega), c1]
  · show s2.cell (s.free + 1) = _
    rw [← f1, c2]

theorem bind_none {xs : List Int} {k : Nat} {x : Int} (h : x ∉ xs) (hρ : ρ x = none) : bindAll xs k ρ x = none := by
  induction xs generalizing k with
  | nil => exact hρ
  | cons y ys ih =>
    simp only [List.mem_cons, not_or] at h
    simp only [bindAll, if_neg h.1]
    exact ih h.2

/-- Calling a procedure with the given parameters, body and environment. -/
theorem enter_env {formals body args a : Int} {fs : List Int} {r : Option Int} {b : List Expr} {vs ps : List Value}
    (hr : Ready s (2 * ps.length + 2 + k) d) (hw : World s W mes σ) (hf : IsFormals s W.chg formals fs r)
    (ha : IsVals s W mes args vs) (hp : paramVals fs r vs = some ps) (hseq : IsSeq s W mes (N.under fs r) body b) (hN : ¬ N c_closure)
    (he : IsEnv s W (N.except (fs ++ r.toList)) a ρ) (hfree : ∀ x, N.free x → ρ x = none) :
    ∃ F p s1 s2 W2, (∀ fuel, F ≤ fuel → checkFormals s fuel formals args = ok () ∧ pairlis fuel s formals args a = ok (p, s1) ∧
      checkFormals s1 fuel formals args = ok () ∧ callLambda s1 body p = ok s2) ∧ Adv W s W2 s2 (2 * ps.length + 2) ∧
      Ready s2 k d ∧ World s2 W2 mes { σ with vals := σ.vals ++ ps } ∧ IsSeq s2 W2 mes (N.under fs r) s2.r1 b ∧
      IsScope s2 W2 (N.under fs r) s2.r0 (bindAll (fs ++ r.toList) σ.vals.length ρ) := by
  have hroom := hr.room
  obtain ⟨F1, p, s1, us, h1, h2, h3, h4, h5⟩ := pairlis_ok (s := s) (a := a) hf ha hp hw (.refl s) (hroom.mono (by omega))
  obtain ⟨F2, h6⟩ := checkFormals_ok hf ha hp hw
  have hl1 := h2.grow.later W
  obtain ⟨F3, h7⟩ := checkFormals_ok (hf.later hl1) (ha.later hl1) hp (h2.world hw)
  obtain ⟨w1, w2⟩ := bind_ok hw h2.grow h2.consts.m0 h4 (by omega) h5
  obtain ⟨s2, g1, g2, g3, g4, g5, g6, g7, g8⟩ := callLambda_ok (s := s1) (e := body) (x := p) (hroom.step h2 (by omega))
  have hlb := bind_later (W := W) h2.grow ps.length
  have hl2 := hlb.trans (g2.later (W.bind s.free ps.length))
  have hadv : Adv W s (W.bind s.free ps.length) s2 (2 * ps.length + 2) := ⟨h2.keeps.trans g3, hl2, by omega⟩
  have hw2 := w1.grow g2 g3.consts.m0
  refine ⟨max F1 (max F2 F3), p, s1, s2, W.bind s.free ps.length, fun fuel hfu => ⟨h6 fuel (by omega), h1 fuel (by omega), h7 fuel (by omega), g1⟩,
    hadv, ?_⟩
  have hsc : IsScope s2 (W.bind s.free ps.length) (N.under fs r) s2.r0 (bindAll (fs ++ r.toList) σ.vals.length ρ) := by
    rw [g6]
    refine ⟨fresh_pair w1 (by omega) (by omega) (by rw [g8]), by rw [g8]; exact ⟨by have := w1.base; simp only [c_symbol_max] at this; show 1 ≤ s1.free; omega, by show s1.free < s2.free; omega⟩, by rw [g8]; simp only; rw [g7],
      ?_, by rw [g8]; simp only; rw [g7]; exact hN, hN, ?_, fun x hx => bind_none hx.2 (hfree x hx.1)⟩
    · rw [g8]
      intro hc
      have : s1.free < s1.free := w1.below _ (w1.source _ hc)
      omega
    rw [g8]
    exact (w2 (N.under fs r) ρ he).later (g2.later _)
  exact ⟨hr.adv hadv (by omega), hw2, by rw [g5]; exact hseq.later hl2, hsc⟩

theorem enter {formals body args a : Int} {fs : List Int} {r : Option Int} {b : List Expr} {vs ps : List Value} {v : Value}
    (hb : SeqOk mv K mes .beginLoop k d (bindAll (fs ++ r.toList) σ.vals.length ρ) { σ with vals := σ.vals ++ ps } b v σ')
    (hr : Ready s (2 * ps.length + 2 + k) d) (hw : World s W mes σ) (hf : IsFormals s W.chg formals fs r)
    (ha : IsVals s W mes args vs) (hp : paramVals fs r vs = some ps) (hseq : IsSeq s W mes (N.under fs r) body b) (hN : ¬ N c_closure)
    (he : IsEnv s W (N.except (fs ++ r.toList)) a ρ) (hfree : ∀ x, N.free x → ρ x = none) :
    ∃ F p s1 s2 W2, (∀ fuel, F ≤ fuel → checkFormals s fuel formals args = ok () ∧ pairlis fuel s formals args a = ok (p, s1) ∧
      checkFormals s1 fuel formals args = ok () ∧ callLambda s1 body p = ok s2) ∧ Adv W s W2 s2 (2 * ps.length + 2) ∧
      Sub mv K mes .begin k σ' (Gives mes v) W2 s2 := by
  obtain ⟨F, p, s1, s2, W2, h1, h2, h3, h4, h5, h6⟩ := enter_env hr hw hf ha hp hseq hN he hfree
  have key := hb W2 s2 _ c_nil h3 h4 h5.seg h6
  unfold Through at key
  rw [if_pos rfl] at key
  exact ⟨F, p, s1, s2, W2, h1, h2, key.adv (.refl _ _) (fun x gp mp => ⟨c_unspecified, .one (fun _ => moves_begin ..) fun fuel => rfl⟩) (by omega)⟩

/-- The machine applies `fv` to `vs`. -/
def CallOk (mv : Prop) (K : Calls) (mes : Bool) (k d : Nat) (σ : Store) (fv : Value) (vs : List Value) (v : Value) (σ' : Store) : Prop :=
  ∀ W s, Ready s k d → World s W mes σ → FixedPair s W.chg s.r1 → IsVal s W mes (s.cell s.r1).car fv → IsVals s W mes (s.cell s.r1).cdr vs →
    Sub mv K mes .apply k σ' (Gives mes v) W s

theorem alike_proc (s : St) (f : Int) : Alike s (s.proc f) :=
  ⟨rfl, rfl, ⟨rfl, rfl, rfl, rfl, rfl⟩, rfl, fun i hi => by show (if _ then _ else _) = _; rw [if_neg hi]⟩

theorem callOk_clo {fs : List Int} {r : Option Int} {b : List Expr} {vs ps : List Value} {v : Value}
    (hp : paramVals fs r vs = some ps)
    (hb : SeqOk mv K mes .beginLoop k d (bindAll (fs ++ r.toList) σ.vals.length ρ) { σ with vals := σ.vals ++ ps } b v σ') :
    CallOk mv K mes (2 * ps.length + 2 + k) d σ (.clo fs r b ρ) vs v σ' := by
  intro W s hr hw hpair hf hargs
  have al := alike_proc s (s.cell s.r1).car
  have a1 := al.adv W
  have hf1 := hf.later a1.later
  have hargs1 := hargs.later a1.later
  have hw1 := al.world hw
  have hr1 := hr.adv (k' := 2 * ps.length + 2 + k) a1 (by omega)
  have hset := hr.proc (s.cell s.r1).car
  have ec : (s.proc (s.cell s.r1).car).cell = s.cell := rfl
  generalize hfe : (s.cell s.r1).car = f at *
  generalize hae : (s.cell s.r1).cdr = args at *
  generalize s.proc f = s0 at *
  cases hf1 with
  | clo hv ht hm h0 h1 h2 hρ h3 hfo hbo hne hN hfree =>
    obtain ⟨F, p, s1, s2, W2, g1, g2, g3⟩ := enter hb hr1 hw1 hfo hargs1 hp hbo hN hρ hfree
    refine g3.adv (a1.trans g2) (fun x gp mp => ⟨x, .fuel (fun _ => moves_applyClosure _ _ _ hr.top hpair.tag
      (by rw [hfe, ← ec]; exact ht) (by rw [hfe, ← ec]; exact h0.tag) (by rw [hfe, ← ec]; exact h3.tag) (by rw [hfe, ← ec]; exact h1.tag)
      (by rw [hfe, ← ec]; exact h2.tag)) F fun fuel hfu => ?_⟩) (by omega)
    obtain ⟨i1, i2, i3, i4⟩ := g1 fuel hfu
    simp only [step, St.rd_ok hpair.valid, ok_bind, hfe, hae, hset, St.rd_ok hv, builtinP_no hv (by rw [ht]; decide), Bool.false_eq_true, if_false, ht,
      applyClosure, St.cdr_ok hv, St.cdr_ok h0.valid, St.cdr_ok h3.valid, St.car_ok h3.valid, St.car_ok h0.valid, St.cdr_ok h1.valid,
      St.cdr_ok h2.valid, i1, i2, i4]

/-- `applyBuiltin` passes the arguments. -/
theorem applyBuiltin_ok {a n id args : Int} {vs : List Value} (hb : IsBuiltin s W.chg a n id) (hw : World s W mes σ)
    (hargs : IsVals s W mes args vs) (hn : n = -1 ∨ n = vs.length ∧ vs.length ≤ 3) (hr : Room s 2) :
    ∃ us s1, Ext s s1 ∧ s1.free = s.free + 2 ∧ Passed s1 W mes n us vs ∧
      ∀ fuel, applyBuiltin K s fuel a args = K.builtin fuel id us s1 := by
  have e1 := push_ext s { tag := .number, car := 0, cdr := n }
  have r1 : Room (s.push { tag := .number, car := 0, cdr := n }) 1 := hr.step e1 (by simp; omega)
  have v1 := hr.free_valid { tag := .number, car := 0, cdr := n }
  have c1 : (s.push { tag := .number, car := 0, cdr := n }).cell s.free = { tag := .number, car := 0, cdr := n } := by simp
  have f1 : (s.push { tag := .number, car := 0, cdr := n }).free = s.free + 1 := by simp
  have ha := hb.arity_ok (hr.mono (by omega))
  have hl1 := e1.grow.later W
  have hb1 := hb.later hl1
  have hargs1 := hargs.later hl1
  have hw1 := e1.world hw
  generalize s.push { tag := .number, car := 0, cdr := n } = s1 at *
  have hf := hb1.function_ok r1
  have e2 := push_ext s1 { tag := .number, car := 0, cdr := id }
  have f2 : (s1.push { tag := .number, car := 0, cdr := id }).free = s1.free + 1 := by simp
  generalize s1.push { tag := .number, car := 0, cdr := id } = s2 at *
  have h32 : toInt32 n = n := toInt32_id (by omega) (by omega)
  have hl2 := e2.grow.later W
  have pre : ∀ fuel, applyBuiltin K s fuel a args =
      (if n = 0 then do
        let (f, s) ← builtinFunction s1 a
        K.builtin fuel f [] s
      else if n = 1 then do
        let c ← s1.rd args
        let (f, s) ← builtinFunction s1 a
        K.builtin fuel f [c.car] s
      else if n = 2 then do
        let c ← s1.rd args
        let d ← s1.rd c.cdr
        let (f, s) ← builtinFunction s1 a
        K.builtin fuel f [c.car, d.car] s
      else if n = 3 then do
        let c ← s1.rd args
        let d ← s1.rd c.cdr
        let e ← s1.rd d.cdr
        let (f, s) ← builtinFunction s1 a
        K.builtin fuel f [c.car, d.car, e.car] s
      else if n = -1 then do
        let (f, s) ← builtinFunction s1 a
        K.builtin fuel f [args] s
      else ok (c_unspecified, s1)) := by
    intro fuel
    simp only [applyBuiltin, ha, ok_bind, St.cdr_ok v1, c1, h32, firstValue_ok hargs1, secondValue_ok hargs1 hw1]
  simp only [hf, ok_bind] at pre
  rcases hn with hn | ⟨hn, hn3⟩
  · refine ⟨[args], s2, e1.trans e2, by omega, by rw [hn]; exact .list (hargs1.later hl2), fun fuel => ?_⟩
    rw [pre, if_neg (by omega), if_neg (by omega), if_neg (by omega), if_neg (by omega), if_pos hn]
  · obtain ⟨us, g1, g2, g3, g4⟩ := hargs1.args
    refine ⟨us, s2, e1.trans e2, by omega, by rw [hn]; exact .args (g1.later hl2) hn3, fun fuel => ?_⟩
    have hlen := g1.length
    rw [pre]
    clear pre
    match us, hlen with
    | [], hlen =>
      simp only [List.length_nil] at hlen
      rw [if_pos (by omega)]
    | [u0], hlen =>
      simp only [List.length_cons, List.length_nil] at hlen
      obtain ⟨i1, i2⟩ := g2 u0 rfl
      rw [if_neg (by omega), if_pos (by omega)]
      simp only [St.rd_ok i1, ok_bind, i2]
    | [u0, u1], hlen =>
      simp only [List.length_cons, List.length_nil] at hlen
      obtain ⟨i1, i2, i3, i4⟩ := g3 u0 u1 rfl
      rw [if_neg (by omega), if_neg (by omega), if_pos (by omega)]
      simp only [St.rd_ok i1, ok_bind, St.rd_ok i2, i3, i4]
    | [u0, u1, u2], hlen =>
      simp only [List.length_cons, List.length_nil] at hlen
      obtain ⟨i1, i2, i3, i4, i5, i6⟩ := g4 u0 u1 u2 rfl
      rw [if_neg (by omega), if_neg (by omega), if_neg (by omega), if_pos (by omega)]
      simp only [St.rd_ok i1, ok_bind, St.rd_ok i2, St.rd_ok i3, i4, i5, i6]
    | _ :: _ :: _ :: _ :: _, hlen => simp only [List.length_cons] at hlen; omega

theorem Spec.IsVal.builtin {a n id : Int} (h : IsVal s W mes a (.prim n id)) : IsBuiltin s W.chg a n id := by
  cases h with
  | prim hb => exact hb

theorem callOk_prim {δ : Int → Int → List Value → Value → Prop} (hK : Implements K.builtin mes δ) {n id : Int} {vs : List Value} {v : Value}
    (h : δ n id vs v) (hm : mv → MovesBuiltin K.builtin mes n id vs) : ∃ k, ∀ d σ, CallOk mv K mes k d σ (.prim n id) vs v σ := by
  obtain ⟨hn, k, hk⟩ := hK n id vs v h
  refine ⟨3 + k, fun d σ W s hr hw hpair hf hargs => ?_⟩
  have hmv : mv → ∀ x gp mp, Moves K ⟨.apply, s, x, gp, mp⟩ := fun q x gp mp => moves_applyPrim _ _ _ hr.top hw hpair.tag hf.builtin hargs
    (hr.room.mono (by omega)) fun _ => ⟨hn, hr.room.mono (by omega), hm q⟩
  have al := alike_proc s (s.cell s.r1).car
  have a1 := al.adv W
  have hf1 := hf.later a1.later
  have hargs1 := hargs.later a1.later
  have hw1 := al.world hw
  have hr1 := hr.adv (k' := 3 + k) a1 (by omega)
  have hset := hr.proc (s.cell s.r1).car
  generalize hfe : (s.cell s.r1).car = f at *
  generalize hae : (s.cell s.r1).cdr = args at *
  generalize s.proc f = s0 at *
  cases hf1 with
  | prim hb =>
    have hbs := World.fixed_cell hw1 (a := c_symbol_builtin) (by decide) (by decide)
    have hbi := hb.isBuiltin hbs
    have e1 := push_ext s0 { tag := .number, car := 0, cdr := n }
    have f1 : (s0.push { tag := .number, car := 0, cdr := n }).free = s0.free + 1 := by simp
    have v1 := (hr1.room).free_valid { tag := .number, car := 0, cdr := n }
    have c1 : (s0.push { tag := .number, car := 0, cdr := n }).cell s0.free = { tag := .number, car := 0, cdr := n } := by simp
    have ha := hb.arity_ok (hr1.room.mono (by omega))
    generalize s0.push { tag := .number, car := 0, cdr := n } = s1 at *
    have a2 := e1.adv (j := 1) (by omega) W
    have hr2 := hr1.adv (k' := 2 + k) a2 (by omega)
    have hw2 := e1.world hw1
    obtain ⟨F1, hlen⟩ := vals_length (hargs1.later a2.later)
    obtain ⟨us, s2, g1, g2, g3, g4⟩ := applyBuiltin_ok (K := K) (hb.later a2.later) hw2 (hargs1.later a2.later) hn (hr2.room.mono (by omega))
    have a3 := g1.adv (j := 2) (by omega) W
    have hr3 := hr2.adv (k' := k) a3 (by omega)
    obtain ⟨F2, r, s3, i1, i2, i3, i4⟩ := hk s2 W σ us (g1.world hw2) hr3.room g3
    have a4 := i2.adv (j := k) i3 W
    have a5 := (alike_r1 s3 r).adv W
    have hw3 := i2.world (g1.world hw2)
    refine (Sub.retVal ((hr3.adv (k' := 0) a4 (by omega)).adv (k' := 0) a5 (by omega)) ((alike_r1 s3 r).world hw3) (i4.later a5.later)).adv
      (a1.trans (a2.trans (a3.trans (a4.trans a5)))) (fun x gp mp => ⟨x, .fuel (fun q => hmv q x gp mp) (max F1 F2) fun fuel hfu => ?_⟩) (by omega)
    have hcf : checkFormals s1 fuel s0.free args = ok () := by
      simp only [checkFormals, St.rd_ok v1, ok_bind, c1, length__, hlen fuel (by omega), ↓reduceIte]
      refine if_neg fun hc => ?_
      rcases hn with rfl | ⟨rfl, _⟩
      · exact hc.2.2 rfl
      · exact hc.1 (by simp)
    simp only [step, St.rd_ok hpair.valid, ok_bind, hfe, hae, hset, St.rd_ok hb.valid, hbi, ↓reduceIte, applyPrim, ha, hcf, g4, i1 fuel (by omega)]

/-! ### Applications -/

/-- Procedures. -/
def IsProc : Value → Prop
  | .clo .. => True
  | .prim .. => True
  | .obj a => a = c_vm_apply
  | _ => False

theorem Spec.Call.isProc {δ : Int → Int → List Value → Value → Prop} {fv v : Value} {vs : List Value} (h : Call mes δ d σ fv vs v σ') : IsProc fv := by
  cases h with
  | apply => exact rfl
  | _ => trivial

/-- What can be called is not one of the constants. -/
theorem checkApply_ok {f : Int} {fv : Value} (h : IsProc fv) (hf : IsVal s W mes f fv) (hw : World s W mes σ₁) : checkApply s f = ok s := by
  have key : ∀ a, c_nil ≤ a → a < 46 → f = a → (s.cell f).tag = .special := by
    rintro a h1 h2 rfl
    have := (World.fixed_cell hw h1 (Int.lt_trans h2 (by decide))).2
    rwa [if_pos h2] at this
  have hsp : (s.cell f).tag ≠ .special → (f = c_f ∨ f = c_t ∨ f = c_nil ∨ f = c_unspecified ∨ f = c_undefined) → False := by
    intro h1 h2
    rcases h2 with h | h | h | h | h <;> exact h1 (key _ (by decide) (by decide) h)
  cases hf with
  | prim hb =>
      have hbs := World.fixed_cell hw (a := c_symbol_builtin) (by decide) (by decide)
      simp only [checkApply, St.rd_ok hb.valid, ok_bind, hb.tag]
      rw [if_neg, if_pos trivial, hb.isBuiltin hbs]
      · rfl
      · rintro (h | h | h | h | h | h | h | h | h)
        · exact hsp (by rw [hb.tag]; decide) (.inl h)
        · exact hsp (by rw [hb.tag]; decide) (.inr (.inl h))
        · exact hsp (by rw [hb.tag]; decide) (.inr (.inr (.inl h)))
        · exact hsp (by rw [hb.tag]; decide) (.inr (.inr (.inr (.inl h))))
        · exact hsp (by rw [hb.tag]; decide) (.inr (.inr (.inr (.inr h))))
        all_goals cases h
  | clo hv ht =>
      simp only [checkApply, St.rd_ok hv, ok_bind, ht]
      rw [if_neg, if_neg (by decide)]
      rintro (h | h | h | h | h | h | h | h | h)
      · exact hsp (by rw [ht]; decide) (.inl h)
      · exact hsp (by rw [ht]; decide) (.inr (.inl h))
      · exact hsp (by rw [ht]; decide) (.inr (.inr (.inl h)))
      · exact hsp (by rw [ht]; decide) (.inr (.inr (.inr (.inl h))))
      · exact hsp (by rw [ht]; decide) (.inr (.inr (.inr (.inr h))))
      all_goals cases h
  | obj hv =>
      have h' : f = c_vm_apply := h
      subst h'
      have ht := key c_vm_apply (by decide) (by decide) rfl
      simp only [checkApply, St.rd_ok hv, ok_bind, ht]
      rw [if_neg (by decide), if_neg (by decide)]
  | _ => exact h.elim

/-- A new pair. -/
theorem push_pair (hr : Ready s (k + 1) d) (hw : World s W mes σ) (a b : Int) :
    ∃ s1, cons s a b = ok (s.free, s1) ∧ Adv W s W { s1 with r1 := s.free } 1 ∧ Ready { s1 with r1 := s.free } k d ∧
      World { s1 with r1 := s.free } W mes σ ∧ FixedPair { s1 with r1 := s.free } W.chg s.free ∧ s1.r0 = s.r0 ∧
      s1.cell s.free = { tag := .pair, car := a, cdr := b } := by
  have e := push_ext s { tag := .pair, car := a, cdr := b }
  have f : (s.push { tag := .pair, car := a, cdr := b }).free = s.free + 1 := by simp
  have c : (s.push { tag := .pair, car := a, cdr := b }).cell s.free = { tag := .pair, car := a, cdr := b } := by simp
  have h := cons_ok (hr.room.mono (by omega)) a b
  generalize s.push { tag := .pair, car := a, cdr := b } = s1 at *
  have ha := (e.adv (j := 1) (by omega) W).trans ((alike_r1 s1 s.free).adv W)
  refine ⟨s1, h, ha.mono (by omega), hr.adv ha (by omega), (alike_r1 s1 s.free).world (e.world hw), ?_, e.r0, c⟩
  exact (fresh_pair (s' := s1) hw (Int.le_refl _) (by omega) (by rw [c])).later ((alike_r1 s1 s.free).adv W).later

/-- The operator is not a procedure yet: it is evaluated. -/
theorem apply_eval {e : Expr} {fv : Value} {vs : List Value} {k1 k2 n : Nat} {R : Label → Nat → Ghost → St → Prop} (hR : Outcome mv K mes R)
    (he : EvalOk mv K mes k1 d ρ σ₁ e fv σ₂)
    (hr : Ready s n (d + 1)) (hn : k1 + k2 ≤ n) (hw : World s W mes σ₁) (hs : IsScope s W N s.r0 ρ)
    (hp : FixedPair s W.chg s.r1) (hc : IsCode s W mes N (s.cell s.r1).car e) (hargs : IsVals s W mes (s.cell s.r1).cdr vs)
    (hstep : ∀ x gp mp fuel, step K fuel ⟨.apply, s, x, gp, mp⟩ =
      (do let s ← pushCc (s.proc (s.cell s.r1).car) (s.cell s.r1).car s.r1 s.r0 c_vm_apply2; ok ⟨.eval, s, x, gp, mp⟩))
    (hm : ∀ x gp mp, mv → Moves K ⟨.apply, s, x, gp, mp⟩)
    (hk : ∀ W2 s2, Later W s W2 s2 → Ready s2 k2 (d + 1) → World s2 W2 mes σ₂ → FixedPair s2 W2.chg s2.r2 → IsVal s2 W2 mes s2.r1 fv →
      IsVals s2 W2 mes (s2.cell s2.r2).cdr vs → R .apply2 k2 W2 s2) : R .apply n W s := by
  have al := alike_proc s (s.cell s.r1).car
  have a1 := al.adv W
  have hr1 := hr.adv (k' := n) a1 (by omega)
  have e1 : (s.proc (s.cell s.r1).car).r1 = s.r1 := rfl
  have e0 : (s.proc (s.cell s.r1).car).r0 = s.r0 := rfl
  have hw1 := al.world hw
  generalize s.proc (s.cell s.r1).car = s1 at *
  have hg1 := grow_pushed s1 (s.cell s.r1).car s.r1 s.r0 c_vm_apply2
  have hl1 := hg1.later W
  have hlp := a1.later.trans hl1
  refine hR.call (he W _ N ((hr1.mono (k' := k1) (by omega) (Nat.le_refl _)).pushed ..) (hw1.grow hg1 rfl) (hc.later hlp) (hs.later hlp)) a1
    (fun x gp mp => ⟨x, .one (hm x gp mp) fun fuel => ?_⟩) (l'' := .apply2) (by decide) (k' := k2) (by omega) fun W2 s2 ha2 hr0 hr2 hw2 hv2 => ?_
  · rw [hstep, hr1.pushCc, ok_bind]
  · have ha := a1.trans ha2
    have hp2 := hp.later ha.later
    have hr2' := (hr.adv (k' := n - k1) ha (by omega)).mono (k' := k2) (by omega) (Nat.le_refl _)
    refine hk W2 s2 ha.later hr2' hw2 (by rw [hr2]; exact hp2) hv2 ?_
    rw [hr2, hp.cell_eq ha.later]
    exact hargs.later ha.later

/-- It is evaluated, then applied. -/
theorem apply_again {δ : Int → Int → List Value → Value → Prop} {e : Expr} {fv v : Value} {vs : List Value} {k1 k2 n : Nat}
    (he : EvalOk mv K mes k1 d ρ σ₁ e fv σ₂) (hcall : CallOk mv K mes k2 (d + 1) σ₂ fv vs v σ₃) (hδ : Call mes δ (d + 1) σ₂ fv vs v σ₃)
    (hr : Ready s n (d + 1)) (hn : k1 + k2 + 1 ≤ n) (hw : World s W mes σ₁) (hs : IsScope s W N s.r0 ρ)
    (hp : FixedPair s W.chg s.r1) (hc : IsCode s W mes N (s.cell s.r1).car e) (hargs : IsVals s W mes (s.cell s.r1).cdr vs)
    (hstep : ∀ x gp mp fuel, step K fuel ⟨.apply, s, x, gp, mp⟩ =
      (do let s ← pushCc (s.proc (s.cell s.r1).car) (s.cell s.r1).car s.r1 s.r0 c_vm_apply2; ok ⟨.eval, s, x, gp, mp⟩))
    (hm : ∀ x gp mp, mv → Moves K ⟨.apply, s, x, gp, mp⟩) :
    Sub mv K mes .apply n σ₃ (Gives mes v) W s := by
  refine apply_eval (.sub ..) he hr (k2 := k2 + 1) (by omega) hw hs hp hc hargs hstep hm fun W2 s2 _ hr2 hw2 hp2 hv2 hargs2 => ?_
  have hca := checkApply_ok hδ.isProc hv2 hw2
  obtain ⟨s3, g1, g2, g3, g4, g5, g6, g7⟩ := push_pair hr2 hw2 s2.r1 (s2.cell s2.r2).cdr
  refine (hcall W2 _ g3 g4 g5 ?_ ?_).adv g2 (fun x gp mp => ⟨x, .one (fun _ => moves_apply2 _ _ _ fun t ht => by
      rw [hca] at ht; cases ht; exact hp2.tag) fun fuel => ?_⟩) (by omega)
  · show IsVal _ _ _ (s3.cell s2.free).car _
    rw [g7]; exact Spec.IsVal.later hv2 g2.later
  · show IsVals _ _ _ (s3.cell s2.free).cdr _
    rw [g7]; exact hargs2.later g2.later
  · simp only [step, hca, ok_bind, St.cdr_ok hp2.valid, g1]

/-- `core:apply` takes the procedure and the list. -/
theorem apply_list {f : Value} {vs rest : List Value} (hr : Ready s (1 + k) (d + 1)) (hw : World s W mes σ) (hpair : FixedPair s W.chg s.r1)
    (hf : IsVal s W mes (s.cell s.r1).car (.obj c_vm_apply)) (hargs : IsVals s W mes (s.cell s.r1).cdr (f :: listVal vs :: rest)) :
    ∃ s1 p, Adv W s W s1 1 ∧ Ready s1 k (d + 1) ∧ World (s1.pushed p s1.r1 s1.r0 c_vm_return) W mes σ ∧
      FixedPair (s1.pushed p s1.r1 s1.r0 c_vm_return) W.chg p ∧ IsVal (s1.pushed p s1.r1 s1.r0 c_vm_return) W mes (s1.cell p).car f ∧
      IsVals (s1.pushed p s1.r1 s1.r0 c_vm_return) W mes (s1.cell p).cdr vs ∧
      (∀ x gp mp, Moves K ⟨.apply, s, x, gp, mp⟩) ∧
      ∀ x gp mp fuel, step K fuel ⟨.apply, s, x, gp, mp⟩ = ok ⟨.apply, s1.pushed p s1.r1 s1.r0 c_vm_return, x, gp, mp⟩ := by
  have hfo : (s.cell s.r1).car = c_vm_apply := hf.isObj
  have al := alike_proc s (s.cell s.r1).car
  have a1 := al.adv W
  have hargs1 := hargs.later a1.later
  have hw1 := al.world hw
  have hr1 := hr.adv (k' := 1 + k) a1 (by omega)
  have hset := hr.proc (s.cell s.r1).car
  have e1 : (s.proc (s.cell s.r1).car).r1 = s.r1 := rfl
  have e0 : (s.proc (s.cell s.r1).car).r0 = s.r0 := rfl
  have ec : (s.proc (s.cell s.r1).car).cell = s.cell := rfl
  generalize hfe : (s.cell s.r1).car = fc at *
  subst hfo
  generalize s.proc c_vm_apply = s0 at *
  have hfix := World.fixed_cell hw1 (a := c_vm_apply) (by decide) (by decide)
  have hsp : (s0.cell c_vm_apply).tag = .special := by rw [hfix.2]; rfl
  generalize hae : (s.cell s.r1).cdr = args at *
  obtain ⟨hp1, hf1, hp2, hl⟩ : FixedPair s0 W.chg args ∧ IsVal s0 W mes (s0.cell args).car f ∧ FixedPair s0 W.chg (s0.cell args).cdr ∧
      IsVals s0 W mes (s0.cell (s0.cell args).cdr).car vs := by
    cases hargs1 with
    | cons hp1 hf1 h =>
      generalize (s0.cell args).cdr = b at *
      cases h with
      | cons hp2 hl _ => exact ⟨hp1, hf1, hp2, hl.isVals⟩
  have e := push_ext s0 { tag := .pair, car := (s0.cell args).car, cdr := (s0.cell (s0.cell args).cdr).car }
  have hc := cons_ok (hr1.room.mono (by omega)) (s0.cell args).car (s0.cell (s0.cell args).cdr).car
  have cf : (s0.push { tag := .pair, car := (s0.cell args).car, cdr := (s0.cell (s0.cell args).cdr).car }).free = s0.free + 1 := by simp
  have cc : (s0.push { tag := .pair, car := (s0.cell args).car, cdr := (s0.cell (s0.cell args).cdr).car }).cell s0.free
    = { tag := .pair, car := (s0.cell args).car, cdr := (s0.cell (s0.cell args).cdr).car } := by simp
  generalize s0.push { tag := .pair, car := (s0.cell args).car, cdr := (s0.cell (s0.cell args).cdr).car } = s1 at *
  have a2 := e.adv (j := 1) (by omega) W
  have hr2 := hr1.adv (k' := k) a2 (by omega)
  have hg := grow_pushed s1 s0.free s1.r1 s1.r0 c_vm_return
  have hl2 := a2.later.trans (hg.later W)
  have hfr := (fresh_pair (s' := s1) hw1 (Int.le_refl _) (by omega) (by rw [cc])).later (hg.later W)
  refine ⟨s1, s0.free, (a1.trans a2).mono (by omega), hr2, (e.world hw1).grow hg rfl, hfr, ?_, ?_,
    fun x gp mp => moves_applyApply _ _ _ hr.top hpair.tag hfe (by rw [← ec]; exact hsp) (by rw [hae, ← ec]; exact hp1.tag)
      (by rw [hae, ← ec]; exact hp2.tag), fun x gp mp fuel => ?_⟩
  · rw [cc]; exact hf1.later hl2
  · rw [cc]; exact hl.later hl2
  · simp only [step, St.rd_ok hpair.valid, ok_bind, hfe, hae, hset, St.rd_ok hfix.1, builtinP_no hfix.1 (by rw [hsp]; decide), Bool.false_eq_true, if_false,
      hsp, if_true, St.car_ok hp1.valid, St.cdr_ok hp1.valid, St.car_ok hp2.valid, hc, hr2.pushCc]

/-- `core:apply`. -/
theorem callOk_apply {f v : Value} {vs rest : List Value} (h : CallOk mv K mes k d σ f vs v σ') :
    CallOk mv K mes (1 + k) (d + 1) σ (.obj c_vm_apply) (f :: listVal vs :: rest) v σ' := by
  intro W s hr hw hpair hf hargs
  obtain ⟨s1, p, g1, g2, g3, g4, g5, g6, g8, g7⟩ := apply_list (K := K) hr hw hpair hf hargs
  refine (Outcome.sub mv K mes σ' (Gives mes v)).call (k' := 0) (h W _ (g2.pushed ..) g3 g4 g5 g6) g1 (fun x gp mp => ⟨x, .one (fun _ => g8 x gp mp) fun fuel => g7 x gp mp fuel⟩)
    (l'' := .vmReturn) (by decide) (by omega) fun W2 s2 ha2 _ _ hw2 hv2 => .retVal (g2.adv (k' := 0) ha2 (by omega)) hw2 hv2

/-- The first evaluation of an operator that is a variable or a lambda expression has no effect. -/
theorem first_ok {δ : Int → Int → List Value → Value → Prop} {f : Expr} {fv : Value} (hd : Direct f)
    (hf : Eval mes δ d ρ σ₁ f fv σ₂) (hg : σ₁.globals = σ.globals) (hr : Ready s 4 d) (hw : World s W mes σ)
    (hc : IsCode s W mes N s.r1 f) (hs : IsScope s W N s.r0 ρ) : ∃ v, Sub mv K mes .eval 4 σ (Gives mes v) W s := by
  cases hf with
  | @var _ _ _ x l v hl hv =>
    have hl' : σ.find ρ x = some l := by rw [← hl]; unfold Store.find; rw [hg]
    have hlt : l < W.count := by
      generalize s.r1 = a at hc
      cases hc with
      | var hn hN hres => exact find_lt hw hs.whole hN hl'
      | global hg =>
        obtain ⟨m, h1, h2, h3⟩ := global_find hw hg hs
        rw [hl'] at h1; cases h1; exact h2
    rw [hw.count] at hlt
    exact ⟨σ.vals[l], ((evalOk_var hl' (List.getElem?_eq_getElem hlt)).mono (by omega)) W s N hr hw hc hs⟩
  | lam fs r b => exact ⟨_, evalOk_lam fs r b W s N hr hw hc hs⟩
  | _ => exact hd.elim

/-- The only literal that can be called is `core:apply`. -/
theorem literal_call {δ : Int → Int → List Value → Value → Prop} {c : Literal} {v : Value} {vs : List Value}
    (h : Call mes δ d σ c.val vs v σ') : c = .obj c_vm_apply := by
  cases c with
  | obj a => have h' : a = c_vm_apply := h.isProc; rw [h']
  | _ => cases h

/-- What is known about a call. -/
def CallInfo (mv : Prop) (K : Calls) (mes : Bool) (k d : Nat) (σ : Store) (fv : Value) (vs : List Value) (v : Value) (σ' : Store) : Prop :=
  CallOk mv K mes k d σ fv vs v σ' ∧ ∀ fs r b ρ, fv = .clo fs r b ρ → ∃ ps kb, 2 * ps.length + 2 + kb ≤ k ∧ paramVals fs r vs = some ps ∧
    SeqOk mv K mes .beginLoop kb d (bindAll (fs ++ r.toList) σ.vals.length ρ) { σ with vals := σ.vals ++ ps } b v σ'

/-- `apply` with a variable in place of the procedure. -/
theorem step_apply_var {n : Nat} (hr : Ready s n d) (hp : FixedPair s W.chg s.r1) (hx : IsName s W (s.cell s.r1).car) (hres : ¬ Reserved (s.cell s.r1).car)
    (x : Int) (gp mp : Option Bool) (fuel : Nat) : step K fuel ⟨.apply, s, x, gp, mp⟩ =
      (do let s ← pushCc (s.proc (s.cell s.r1).car) (s.cell s.r1).car s.r1 s.r0 c_vm_apply2; ok ⟨.eval, s, x, gp, mp⟩) := by
  have hv : (s.proc (s.cell s.r1).car).Valid (s.cell s.r1).car := hx.text.valid
  have ht : ((s.proc (s.cell s.r1).car).cell (s.cell s.r1).car).tag = .symbol := hx.tag
  unfold Reserved at hres
  simp only [not_or] at hres
  obtain ⟨r1, r2, r3, r4, r5⟩ := hres
  simp only [step, St.rd_ok hp.valid, ok_bind, hr.proc, St.rd_ok hv, builtinP_no hv (by rw [ht]; decide), Bool.false_eq_true, if_false, ht,
    if_neg r1, if_neg r2, if_neg r4, if_neg r5]
  rfl

/-- `apply` with a form that is not a lambda expression in place of the procedure. -/
theorem step_apply_pair {n : Nat} (hr : Ready s n d) (hp : FixedPair s W.chg s.r1) (h1 : FixedPair s W.chg (s.cell s.r1).car)
    (h2 : (s.cell (s.cell s.r1).car).car ≠ c_symbol_lambda)
    (x : Int) (gp mp : Option Bool) (fuel : Nat) : step K fuel ⟨.apply, s, x, gp, mp⟩ =
      (do let s ← pushCc (s.proc (s.cell s.r1).car) (s.cell s.r1).car s.r1 s.r0 c_vm_apply2; ok ⟨.eval, s, x, gp, mp⟩) := by
  have hv : (s.proc (s.cell s.r1).car).Valid (s.cell s.r1).car := h1.valid
  have ht : ((s.proc (s.cell s.r1).car).cell (s.cell s.r1).car).tag = .pair := h1.tag
  have hh : ¬ ((s.proc (s.cell s.r1).car).cell (s.cell s.r1).car).car = c_symbol_lambda := h2
  simp only [step, St.rd_ok hp.valid, ok_bind, hr.proc, St.rd_ok hv, builtinP_no hv (by rw [ht]; decide), Bool.false_eq_true, if_false, ht,
    if_neg hh]
  rfl

/-- `apply` with something else in place of the procedure. -/
theorem step_apply_other {n : Nat} (hr : Ready s n d) (hp : FixedPair s W.chg s.r1) (hv : s.Valid (s.cell s.r1).car)
    (ht : (s.cell (s.cell s.r1).car).tag ∉ [Tag.struct, .closure, .continuation, .special, .symbol, .pair])
    (x : Int) (gp mp : Option Bool) (fuel : Nat) : step K fuel ⟨.apply, s, x, gp, mp⟩ =
      (do let s ← pushCc (s.proc (s.cell s.r1).car) (s.cell s.r1).car s.r1 s.r0 c_vm_apply2; ok ⟨.eval, s, x, gp, mp⟩) := by
  have hv' : (s.proc (s.cell s.r1).car).Valid (s.cell s.r1).car := hv
  have ec : (s.proc (s.cell s.r1).car).cell (s.cell s.r1).car = s.cell (s.cell s.r1).car := rfl
  have hb : builtinP (s.proc (s.cell s.r1).car) (s.cell s.r1).car = ok (false, s.proc (s.cell s.r1).car) :=
    builtinP_no hv' (fun e => ht (by rw [← ec, e]; simp))
  simp only [step, St.rd_ok hp.valid, ok_bind, hr.proc, St.rd_ok hv', hb, Bool.false_eq_true, if_false, ec]
  cases h : (s.cell (s.cell s.r1).car).tag <;> first | rfl | (rw [h] at ht; simp at ht)

theorem moves_apply_var {n : Nat} (hr : Ready s n d) (hp : FixedPair s W.chg s.r1) (hx : IsName s W (s.cell s.r1).car) (hres : ¬ Reserved (s.cell s.r1).car)
    (x : Int) (gp mp : Option Bool) : Moves K ⟨.apply, s, x, gp, mp⟩ := by
  unfold Reserved at hres
  simp only [not_or] at hres
  obtain ⟨r1, r2, r3, r4, r5⟩ := hres
  exact moves_applyEval _ _ _ hr.top hp.tag (by rw [hx.tag]; decide) (by rw [hx.tag]; decide) (by rw [hx.tag]; decide)
    (by rw [hx.tag]; decide) (fun _ => ⟨r4, r5, r2, r1⟩) (by rw [hx.tag]; nofun)

theorem moves_apply_pair {n : Nat} (hr : Ready s n d) (hp : FixedPair s W.chg s.r1) (h1 : FixedPair s W.chg (s.cell s.r1).car)
    (h2 : (s.cell (s.cell s.r1).car).car ≠ c_symbol_lambda) (x : Int) (gp mp : Option Bool) : Moves K ⟨.apply, s, x, gp, mp⟩ :=
  moves_applyEval _ _ _ hr.top hp.tag (by rw [h1.tag]; decide) (by rw [h1.tag]; decide) (by rw [h1.tag]; decide)
    (by rw [h1.tag]; decide) (by rw [h1.tag]; nofun) fun _ => h2

theorem moves_apply_other {n : Nat} (hr : Ready s n d) (hp : FixedPair s W.chg s.r1)
    (ht : (s.cell (s.cell s.r1).car).tag ∉ [Tag.struct, .closure, .continuation, .special, .symbol, .pair])
    (x : Int) (gp mp : Option Bool) : Moves K ⟨.apply, s, x, gp, mp⟩ :=
  moves_applyEval _ _ _ hr.top hp.tag (fun e => ht (by simp [e])) (fun e => ht (by simp [e])) (fun e => ht (by simp [e]))
    (fun e => ht (by simp [e])) (fun e => absurd (by simp [e]) ht) (fun e => absurd (by simp [e]) ht)

/-- Applying the operator `f`, which has not been evaluated, to the values of the operands. -/
theorem apply_form {δ : Int → Int → List Value → Value → Prop} {f : Expr} {fv v : Value} {vs : List Value} {k1 k2 n : Nat}
    (hf : Eval mes δ d ρ σ₁ f fv σ₂) (he : EvalOk mv K mes k1 d ρ σ₁ f fv σ₂) (hcall : CallInfo mv K mes k2 (d + 1) σ₂ fv vs v σ₃)
    (hδ : Call mes δ (d + 1) σ₂ fv vs v σ₃) (hr : Ready s n (d + 1)) (hn : k1 + k2 + 1 ≤ n) (hw : World s W mes σ₁)
    (hs : IsScope s W N s.r0 ρ) (hp : FixedPair s W.chg s.r1) (hc : IsCode s W mes N (s.cell s.r1).car f)
    (hargs : IsVals s W mes (s.cell s.r1).cdr vs) : Sub mv K mes .apply n σ₃ (Gives mes v) W s := by
  obtain ⟨hcall, hclo⟩ := hcall
  have pair : ∀ c, c = (s.cell s.r1).car → FixedPair s W.chg c → (s.cell c).car ≠ c_symbol_lambda → Sub mv K mes .apply n σ₃ (Gives mes v) W s := by
    rintro c rfl h1 h2
    exact apply_again he hcall hδ hr hn hw hs hp hc hargs (step_apply_pair hr hp h1 h2) fun x gp mp _ => moves_apply_pair hr hp h1 h2 x gp mp
  cases id hc with
  | const h =>
    cases hf
    refine (hcall W s (hr.mono (by omega) (Nat.le_refl _)) hw hp ?_ hargs).mono (by omega) fun _ _ _ h => h
    exact h.isVal
  | quote h1 hh => exact pair _ rfl h1 (by rw [hh]; decide)
  | var hx hN hres =>
    exact apply_again he hcall hδ hr hn hw hs hp hc hargs (step_apply_var hr hp hx hres) fun x gp mp _ => moves_apply_var hr hp hx hres x gp mp
  | global hg =>
    exact apply_again he hcall hδ hr hn hw hs hp hc hargs (step_apply_other hr hp hg.valid (by rw [hg.tag]; decide))
      fun x gp mp _ => moves_apply_other hr hp (by rw [hg.tag]; decide) x gp mp
  | ite h1 hh => exact pair _ rfl h1 (by rw [hh]; decide)
  | ifOnly h1 hh => exact pair _ rfl h1 (by rw [hh]; decide)
  | begin h1 hh => exact pair _ rfl h1 (by rw [hh]; decide)
  | set h1 hh => exact pair _ rfl h1 (by rw [hh]; decide)
  | app h1 hh => exact pair _ rfl h1 fun e => hh (by unfold SpecialForm; simp [e])
  | @lam _ _ fs r b h1 hh h2 hfo hb hne =>
    cases hf
    obtain ⟨ps, kb, i1, i2, i3⟩ := hclo fs r b ρ rfl
    have al := alike_proc s (s.cell s.r1).car
    have a1 := al.adv W
    have hl := a1.later
    have hr1 := (hr.adv (k' := n) a1 (by omega)).mono (k' := 2 * ps.length + 2 + kb) (by omega) (Nat.le_refl _)
    have hset := hr.proc (s.cell s.r1).car
    have e0 : (s.proc (s.cell s.r1).car).r0 = s.r0 := rfl
    have ec : (s.proc (s.cell s.r1).car).cell = s.cell := rfl
    have hv : (s.proc (s.cell s.r1).car).Valid (s.cell s.r1).car := h1.valid
    have hv2 : (s.proc (s.cell s.r1).car).Valid (s.cell (s.cell s.r1).car).cdr := h2.valid
    have hw1 := al.world hw
    have hfo1 := hfo.later hl
    have hb1 := hb.later hl
    have hargs1 := hargs.later hl
    have hs1 := hs.whole.later hl
    generalize s.proc (s.cell s.r1).car = s0 at *
    obtain ⟨F, p, s1, s2, W2, g1, g2, g3⟩ := enter i3 hr1 hw1 hfo1 hargs1 i2 hb1 hs.mark (hs1.except _) hs.free
    refine g3.adv (a1.trans g2) (fun x gp mp => ⟨x, .fuel (fun _ => moves_applyLambda _ _ _ hr.top hp.tag h1.tag hh h2.tag) F fun fuel hfu => ?_⟩) (by omega)
    obtain ⟨j1, j2, j3, j4⟩ := g1 fuel hfu
    simp only [step, St.rd_ok hp.valid, ok_bind, hset, St.rd_ok hv, builtinP_no hv (show (s0.cell (s.cell s.r1).car).tag ≠ .struct by rw [ec, h1.tag]; decide),
      Bool.false_eq_true, if_false, ec, h1.tag, hh, ↓reduceIte, St.car_ok hv2, St.cdr_ok hv2, e0, j2, j3, j4]

/-- The first step for an application. -/
theorem step_app {n : Nat} (hr : Ready s n (d + 1)) (hp : FixedPair s W.chg s.r1) (hh : ¬ SpecialForm (s.cell s.r1).car)
    (x : Int) (gp mp : Option Bool) (fuel : Nat) : step K fuel ⟨.eval, s, x, gp, mp⟩ =
      ok ⟨.eval, s.pushed (s.cell s.r1).car s.r1 s.r0 c_vm_eval_check_func, x, gp, mp⟩ := by
  unfold SpecialForm at hh
  simp only [not_or] at hh
  obtain ⟨g1, g2, g3, g4, g5, g6, g7, g8, g9, g10⟩ := hh
  simp only [step, St.rd_ok hp.valid, ok_bind, hp.tag, if_neg g1, if_neg g2, if_neg g3, if_neg g4, if_neg g5, if_neg g6, if_neg g7, if_neg g8, g9, g10,
    or_false, if_false, hr.pushCc, (hr.pushed ..).gcCheck]

/-- An application, up to the evaluation of the operands. -/
theorem app_first {f : Expr} {args : List Expr} {k0 k' : Nat} {R : Label → Nat → Ghost → St → Prop} (hR : Outcome mv K mes R)
    (h0 : ∀ W s N, Ready s k0 d → World s W mes σ → IsCode s W mes N s.r1 f → IsScope s W N s.r0 ρ → (mes = false → Direct f) →
      ∃ v, Sub mv K mes .eval k0 σ₀ (Gives mes v) W s)
    (hr : Ready s (k0 + k') (d + 1)) (hw : World s W mes σ) (hco : IsCode s W mes N s.r1 (.app f args)) (hs : IsScope s W N s.r0 ρ)
    (hk : ∀ W1 s1, Adv W s W1 s1 k0 → Ready s1 k' (d + 1) → World s1 W1 mes σ₀ → s1.r2 = s.r1 → IsScope s1 W1 N s1.r0 ρ →
      R .evalCheckFunc k' W1 s1) :
    R .eval (k0 + k') W s := by
  cases hco with
  | app hp hh hc hcs hdir =>
    have hg1 := grow_pushed s (s.cell s.r1).car s.r1 s.r0 c_vm_eval_check_func
    have hl1 := hg1.later W
    obtain ⟨w, h0⟩ := h0 W (s.pushed (s.cell s.r1).car s.r1 s.r0 c_vm_eval_check_func) N
      ((hr.mono (k' := k0) (by omega) (Nat.le_refl _)).pushed ..) (hw.grow hg1 rfl) (hc.later hl1) (hs.later hl1) hdir
    refine hR.call h0 (.refl W s) (fun x gp mp => ⟨x, .one (fun _ => moves_app _ _ _ hp.tag hh fun fuel => (hr.pushed ..).gcCheck fuel) fun fuel => step_app hr hp hh x gp mp fuel⟩) (l'' := .evalCheckFunc) (by decide)
      (k' := k') (by omega) fun W1 s1 ha1 hr01 hr21 hw1 _ => ?_
    exact hk W1 s1 ha1 (hr.adv ha1 (by omega)) hw1 hr21 (hs.at ha1.later hr01)

/-- The evaluation of the operands of the application at `c`, up to `apply`. -/
theorem app_args {f : Expr} {args : List Expr} {vs : List Value} {ka k' : Nat} {c : Int} {R : Label → Nat → Ghost → St → Prop} (hR : Outcome mv K mes R)
    (ha : ArgsOk mv K mes ka d ρ σ₀ args vs σ₁)
    (hr1 : Ready s (ka + (1 + k')) (d + 1)) (hw1 : World s W mes σ₀) (hr2 : s.r2 = c) (hp1 : FixedPair s W.chg c)
    (hcs1 : IsSeq s W mes N (s.cell c).cdr args) (hc : IsCode s W mes N (s.cell c).car f) (hs1 : IsScope s W N s.r0 ρ)
    (hk : ∀ W1 s1, Later W s W1 s1 → Ready s1 k' (d + 1) → World s1 W1 mes σ₁ → IsScope s1 W1 N s1.r0 ρ → FixedPair s1 W1.chg s1.r1 →
      IsCode s1 W1 mes N (s1.cell s1.r1).car f → IsVals s1 W1 mes (s1.cell s1.r1).cdr vs → R .apply k' W1 s1) :
    R .evalCheckFunc (ka + (1 + k')) W s := by
  have hg2 := grow_pushed s (s.cell c).cdr s.r2 s.r0 c_vm_eval2
  have hl2 := hg2.later W
  refine hR.call (ha W (s.pushed (s.cell c).cdr s.r2 s.r0 c_vm_eval2) N
    ((hr1.mono (k' := ka) (by omega) (Nat.le_refl _)).pushed ..) (hw1.grow hg2 rfl) (hcs1.later hl2) (hs1.later hl2))
    (.refl W s) (fun x gp mp => ⟨x, .one (fun _ => moves_checkFunc _ _ _ (by rw [hr2]; exact hp1.tag)) fun fuel => ?_⟩) (l'' := .eval2) (by decide)
    (k' := 1 + k') (by omega) fun W2 s2 ha2 hr02 hr22 hw2 hv2 => ?_
  · simp only [step, hr2, St.cdr_ok hp1.valid, ok_bind, hr1.pushCc]
  have hr2' := hr1.adv (k' := 1 + k') ha2 (by omega)
  have hp2 := hp1.later ha2.later
  have hc2 := hc.later ha2.later
  have hs2 := hs1.at ha2.later hr02
  obtain ⟨s3, g1, g2, g3, g4, g5, g6, g7⟩ := push_pair (k := k') (hr2'.mono (by omega) (Nat.le_refl _)) hw2 (s.cell c).car s2.r1
  refine hR.adv (hk W2 _ (ha2.later.trans g2.later) g3 g4 (hs2.at g2.later g6) g5 ?_ ?_) g2 (fun x gp mp => ⟨x, .one (fun _ => moves_eval2 _ _ _ (by rw [hr22, hr2]; exact hp2.tag)) fun fuel => ?_⟩) (by omega)
  · show IsCode _ _ _ _ (s3.cell s2.free).car _
    rw [g7]; exact hc2.later g2.later
  · show IsVals _ _ _ (s3.cell s2.free).cdr _
    rw [g7]; exact Spec.IsVals.later hv2 g2.later
  · simp only [step, hr22, hr2, St.car_ok hp2.valid, hp1.cell_eq ha2.later, ok_bind, g1]

/-- An application. -/
theorem evalOk_app {δ : Int → Int → List Value → Value → Prop} {f : Expr} {args : List Expr} {fv v : Value} {vs : List Value} {k0 ka k1 k2 : Nat}
    (h0 : ∀ W s N, Ready s k0 d → World s W mes σ → IsCode s W mes N s.r1 f → IsScope s W N s.r0 ρ → (mes = false → Direct f) →
      ∃ v, Sub mv K mes .eval k0 σ₀ (Gives mes v) W s)
    (ha : ArgsOk mv K mes ka d ρ σ₀ args vs σ₁) (hf : Eval mes δ d ρ σ₁ f fv σ₂) (he : EvalOk mv K mes k1 d ρ σ₁ f fv σ₂)
    (hcall : CallInfo mv K mes k2 (d + 1) σ₂ fv vs v σ₃) (hδ : Call mes δ (d + 1) σ₂ fv vs v σ₃) :
    EvalOk mv K mes (k0 + (ka + (1 + (k1 + k2 + 1)))) (d + 1) ρ σ (.app f args) v σ₃ := by
  intro W s N hr hw hco hs
  refine app_first (.sub ..) h0 hr hw hco hs fun W1 s1 ha1 hr1 hw1 hr21 hs1 => ?_
  cases hco with
  | app hp hh hc hcs hdir =>
    have ec := hp.cell_eq ha1.later
    refine app_args (.sub ..) ha hr1 hw1 hr21 (hp.later ha1.later) (by rw [ec]; exact hcs.later ha1.later) (by rw [ec]; exact hc.later ha1.later) hs1
      fun W2 s2 _ hr2 hw2 hs2 hp2 hc2 hargs => ?_
    exact apply_form hf he hcall hδ hr2 (Nat.le_refl _) hw2 hs2 hp2 hc2 hargs

end Mes
