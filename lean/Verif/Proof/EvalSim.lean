import Verif.Proof.EvalStep
/-
The machine computes what the semantics says: one lemma for each rule.
-/
namespace Mes
open Res Spec Gc

variable {mv : Prop} {K : Calls} {s s' s'' s1 : St} {W W' W1 : Ghost} {mes : Bool} {σ σ' σ₁ σ₂ σ₃ : Store} {N : Idents} {ρ : Locals}
  {d k : Nat}

/-- The machine evaluates `e` to `v`, using at most `k` cells and `d` frames. -/
def EvalOk (mv : Prop) (K : Calls) (mes : Bool) (k d : Nat) (ρ : Locals) (σ : Store) (e : Expr) (v : Value) (σ' : Store) : Prop :=
  ∀ W s N, Ready s k d → World s W mes σ → IsCode s W mes N s.r1 e → IsScope s W N s.r0 ρ →
    Sub mv K mes .eval k σ' (Gives mes v) W s

/-- The machine evaluates the operands `es` to `vs`. -/
def ArgsOk (mv : Prop) (K : Calls) (mes : Bool) (k d : Nat) (ρ : Locals) (σ : Store) (es : List Expr) (vs : List Value) (σ' : Store) : Prop :=
  ∀ W s N, Ready s k d → World s W mes σ → IsSeq s W mes N s.r1 es → IsScope s W N s.r0 ρ →
    Sub mv K mes .evlis k σ' (GivesAll mes vs) W s

theorem EvalOk.mono {k' : Nat} {e : Expr} {v : Value} (h : EvalOk mv K mes k d ρ σ e v σ') (hk : k ≤ k') :
    EvalOk mv K mes k' d ρ σ e v σ' :=
  fun W s N hr hw hc hs => (h W s N (hr.mono hk (Nat.le_refl _)) hw hc hs).mono hk (fun _ _ _ h => h)

theorem ArgsOk.mono {k' : Nat} {es : List Expr} {vs : List Value} (h : ArgsOk mv K mes k d ρ σ es vs σ') (hk : k ≤ k') :
    ArgsOk mv K mes k' d ρ σ es vs σ' :=
  fun W s N hr hw hc hs => (h W s N (hr.mono hk (Nat.le_refl _)) hw hc hs).mono hk (fun _ _ _ h => h)

/-! ### Steps that allocate or set registers -/

/-- From `s` to `s'` at most `j` cells were allocated and the stack is the same. -/
structure Adv (W : Ghost) (s : St) (W' : Ghost) (s' : St) (j : Nat) : Prop where
  keeps : SameStack s s'
  later : Later W s W' s'
  free : s'.free ≤ s.free + j

theorem Adv.refl (W : Ghost) (s : St) : Adv W s W s 0 := ⟨.refl s, .refl W s, by omega⟩

theorem Adv.trans {W'' : Ghost} {i j : Nat} (h : Adv W s W' s' i) (h' : Adv W' s' W'' s'' j) : Adv W s W'' s'' (i + j) :=
  ⟨h.keeps.trans h'.keeps, h.later.trans h'.later, by have := h.free; have := h'.free; omega⟩

theorem Adv.mono {i j : Nat} (h : Adv W s W' s' i) (hj : i ≤ j) : Adv W s W' s' j := ⟨h.keeps, h.later, by have := h.free; omega⟩

theorem Spec.Frame.adv {j : Nat} (h : Ext s s') (hj : s'.free ≤ s.free + j) (W : Ghost) : Adv W s W s' j := ⟨h.keeps, h.grow.later W, hj⟩

/-- Other registers. -/
structure Alike (s s' : St) : Prop where
  cell : s'.cell = s.cell
  free : s'.free = s.free
  consts : Consts s s'
  sp : s'.sp = s.sp
  stack : ∀ i, i ≠ s.sp + 4 → s'.stack i = s.stack i

theorem alike_r1 (s : St) (r : Int) : Alike s { s with r1 := r } := ⟨rfl, rfl, ⟨rfl, rfl, rfl, rfl, rfl⟩, rfl, fun _ _ => rfl⟩
theorem alike_r01 (s : St) (r q : Int) : Alike s { s with r1 := r, r0 := q } := ⟨rfl, rfl, ⟨rfl, rfl, rfl, rfl, rfl⟩, rfl, fun _ _ => rfl⟩

theorem Alike.grow (h : Alike s s') : Grow s s' := ⟨by rw [h.free]; omega, fun _ _ => by rw [h.cell]⟩
theorem Alike.adv (h : Alike s s') (W : Ghost) : Adv W s W s' 0 :=
  ⟨⟨h.consts, h.sp, fun i _ hi => h.stack i hi⟩, h.grow.later W, by rw [h.free]; omega⟩
theorem Alike.world (h : Alike s s') (hw : World s W mes σ) : World s' W mes σ := hw.grow h.grow h.consts.m0

theorem Spec.Ready.adv {j k' : Nat} (h : Ready s k d) (ha : Adv W s W' s' j) (he : j + k' ≤ k) : Ready s' k' d :=
  h.keeps ha.keeps ha.later.le ha.free he

theorem Sub.adv {l l' : Label} {k j k' : Nat} {P : Ghost → St → Prop} (h : Sub mv K mes l' k σ' P W' s')
    (ha : Adv W s W' s' j) (hs : ∀ x gp mp, ∃ x', Walk mv K ⟨l, s, x, gp, mp⟩ ⟨l', s', x', gp, mp⟩) (hk : j + k ≤ k') :
    Sub mv K mes l k' σ' P W s := (h.tail hs ha.keeps ha.later ha.free).mono hk fun _ _ _ h => h

/-- `Sub.call` from a state reached before. -/
theorem Sub.callAdv {l l' l'' : Label} {k k' j n : Nat} {P Q : Ghost → St → Prop} {p1 p2 a c : Int}
    (h : Sub mv K mes l' k σ₁ P W1 (s1.pushed p1 p2 a c)) (ha : Adv W s W1 s1 j)
    (hs : ∀ x gp mp, ∃ x', Walk mv K ⟨l, s, x, gp, mp⟩ ⟨l', s1.pushed p1 p2 a c, x', gp, mp⟩)
    (hc : labelOf c = some l'') (hn : j + k + k' ≤ n)
    (hk : ∀ W' s', Adv W1 s1 W' s' k → s'.r0 = s1.r0 → s'.r2 = p2 → World s' W' mes σ₁ → P W' s' →
      Sub mv K mes l'' k' σ' Q W' s') : Sub mv K mes l n σ' Q W s :=
  (h.call hs ha.keeps ha.later ha.free hc fun W' s' hb hl hw hf hp =>
    hk W' s' ⟨hb.keeps, hl, hf⟩ hb.r0 hb.r2 hw hp).mono hn fun _ _ _ h => h

/-- What is said about a run of the machine from a label, if steps before it do not matter. -/
structure Outcome (mv : Prop) (K : Calls) (mes : Bool) (R : Label → Nat → Ghost → St → Prop) : Prop where
  adv : ∀ {l l' : Label} {k j k' : Nat} {W W' : Ghost} {s s' : St}, R l' k W' s' → Adv W s W' s' j →
    (∀ x gp mp, ∃ x', Walk mv K ⟨l, s, x, gp, mp⟩ ⟨l', s', x', gp, mp⟩) → j + k ≤ k' → R l k' W s
  call : ∀ {l l' l'' : Label} {k k' j n : Nat} {σ₁ : Store} {P : Ghost → St → Prop} {p1 p2 a c : Int} {W W1 : Ghost} {s s1 : St},
    Sub mv K mes l' k σ₁ P W1 (s1.pushed p1 p2 a c) → Adv W s W1 s1 j →
    (∀ x gp mp, ∃ x', Walk mv K ⟨l, s, x, gp, mp⟩ ⟨l', s1.pushed p1 p2 a c, x', gp, mp⟩) → labelOf c = some l'' → j + k + k' ≤ n →
    (∀ W' s', Adv W1 s1 W' s' k → s'.r0 = s1.r0 → s'.r2 = p2 → World s' W' mes σ₁ → P W' s' → R l'' k' W' s') → R l n W s

theorem Outcome.sub (mv : Prop) (K : Calls) (mes : Bool) (σ' : Store) (P : Ghost → St → Prop) : Outcome mv K mes fun l k W s => Sub mv K mes l k σ' P W s :=
  ⟨fun h ha hs hk => h.adv ha hs hk, fun h ha hs hc hn hk => h.callAdv ha hs hc hn hk⟩

theorem Spec.IsScope.at {r r' : Int} (h : IsScope s W N r ρ) (hl : Later W s W' s') (e : r' = r) : IsScope s' W' N r' ρ :=
  e ▸ h.later hl

theorem Spec.IsScope.whole {r : Int} (h : IsScope s W N r ρ) : IsEnv s W N r ρ := by
  intro x hx
  obtain ⟨h1, h2⟩ := h.env x hx
  exact ⟨.next h.pair h.valid h.tag h.src (fun e => h.key (e ▸ hx)) h1, h2⟩

theorem Spec.IsVal.isVals {a : Int} {vs : List Value} (h : IsVal s W mes a (listVal vs)) : IsVals s W mes a vs := by
  induction vs generalizing a with
  | nil => cases h; exact .nil
  | cons v vs ih =>
    cases h with
    | pair hp hx hy => exact .cons hp hx (ih hy)

theorem Spec.IsVal.isObj {a n : Int} (h : IsVal s W mes a (.obj n)) : a = n := by cases h; rfl

theorem Spec.IsLiteral.isVal {a : Int} {c : Literal} (h : IsLiteral s W.chg a c) : IsVal s W mes a c.val := by
  induction h with
  | int h hm => exact .int h hm
  | char h hm => exact .char h hm
  | pair hp _ _ i1 i2 => exact .pair hp i1 i2
  | obj hv ht hu => exact .obj hv ht hu

theorem Spec.IsVal.ne_undefined {a : Int} {v : Value} (h : IsVal s W mes a v) (hw : World s W mes σ) : a ≠ c_undefined := by
  have ht := (World.fixed_cell hw (a := c_undefined) (by decide) (by decide)).2
  rintro rfl
  simp only [c_undefined, show (8 : Int) < 46 by decide, if_true] at ht
  cases h with
  | int h => have := h.tag; simp only [c_undefined] at this; rw [ht] at this; cases this
  | char h => have := h.tag; simp only [c_undefined] at this; rw [ht] at this; cases this
  | pair h => have := h.tag; simp only [c_undefined] at this; rw [ht] at this; cases this
  | obj _ _ hu => exact hu rfl
  | prim h => have := h.tag; simp only [c_undefined] at this; rw [ht] at this; cases this
  | clo _ h => simp only [c_undefined] at h; rw [ht] at h; cases h

/-- Only `#f` is at the address of `#f`. -/
theorem Spec.IsVal.false_iff {a : Int} {v : Value} (h : IsVal s W mes a v) (hw : World s W mes σ) :
    a = c_f ↔ v = .obj c_f := by
  have ht := (World.false_ hw).2
  constructor
  · rintro rfl
    cases h with
    | int h => rw [h.tag] at ht; cases ht
    | char h => rw [h.tag] at ht; cases ht
    | pair h => rw [h.tag] at ht; cases ht
    | obj _ _ hu => rfl
    | prim h => rw [h.tag] at ht; cases ht
    | clo _ h => rw [h] at ht; cases ht
  · rintro rfl
    cases h
    rfl

/-! ### Literals, variables, lambda expressions -/

theorem step_eval_self {fuel : Nat} {x : Int} {gp mp : Option Bool} (hv : s.Valid s.r1)
    (ht : (s.cell s.r1).tag ≠ .pair ∧ (s.cell s.r1).tag ≠ .symbol ∧ (s.cell s.r1).tag ≠ .variable ∧
      (s.cell s.r1).tag ≠ .brokenHeart) : step K fuel ⟨.eval, s, x, gp, mp⟩ = ok ⟨.vmReturn, s, x, gp, mp⟩ := by
  obtain ⟨h1, h2, h3, h4⟩ := ht
  simp only [step, St.rd_ok hv, ok_bind]

theorem evalOk_const (c : Literal) : EvalOk mv K mes 0 d ρ σ (.const c) c.val σ := by
  intro W s N hr hw hc hs
  cases hc with
  | const h ht hm =>
    have hv := h.isVal (mes := mes)
    exact (Sub.retVal hr hw hv).tail (j := 0)
      (fun x gp mp => ⟨x, .one (fun _ => moves_self _ _ _ ht.1 ht.2.1 ht.2.2) fun fuel => step_eval_self h.valid ⟨ht.1, ht.2.1, ht.2.2, hv.tag_ne.2⟩⟩)
      (.refl s) (.refl W s) (by omega)

theorem evalOk_quote (c : Literal) : EvalOk mv K mes 0 d ρ σ (.quote c) c.val σ := by
  intro W s N hr hw hc hs x gp mp
  cases hc with
  | quote hp hh h1 hd =>
    have hg : Grow s { s.popped with r1 := (s.cell (s.cell s.r1).cdr).car } := ⟨Int.le_refl _, fun _ _ => rfl⟩
    refine ⟨W, _, x, .one (fun _ => moves_quote _ _ _ hp.tag hh h1.tag) fun fuel => ?_, popped_popped (s.cell (s.cell s.r1).cdr).car, hg.later W, hw.grow hg rfl,
      by show s.free ≤ s.free + ((0 : Nat) : Int); omega, (hd.later (hg.later W)).isVal⟩
    have e1 : s.popped.car (s.cell s.r1).cdr = ok (s.cell (s.cell s.r1).cdr).car := St.car_ok (s := s.popped) h1.valid
    simp only [step, St.rd_ok hp.valid, ok_bind, hp.tag, hh, hr.pop, e1]
    rfl

theorem find_holds {l : Nat} {v : Value} (hw : World s W mes σ) (hv : σ.vals[l]? = some v) :
    s.Valid (W.loc l) ∧ IsVal s W mes (s.cell (W.loc l)).cdr v ∧ W.loc l ≠ c_f := by
  have hlt : l < W.count := by rw [hw.count]; exact (List.getElem?_eq_some_iff.1 hv).1
  refine ⟨(hw.pair l hlt).1, hw.holds l v hv, fun e => ?_⟩
  have := (hw.pair l hlt).2
  rw [e, (World.false_ hw).2] at this; cases this

/-- The binding of an expanded variable. -/
theorem global_find {c x : Int} (hw : World s W mes σ) (hg : IsGlobal s W N c x) (hs : IsScope s W N s.r0 ρ) :
    ∃ l, σ.find ρ x = some l ∧ l < W.count ∧ (s.cell c).car = W.loc l := by
  obtain ⟨l, h1, h2, h3⟩ := hg.loc
  exact ⟨l, by rw [Store.find, hs.free x hg.free]; exact hw.glob x l h1, h2, h3⟩

theorem evalOk_var {x : Int} {l : Nat} {v : Value} (hl : σ.find ρ x = some l) (hv : σ.vals[l]? = some v) :
    EvalOk mv K mes 1 d ρ σ (.var x) v σ := by
  intro W s N hr hw hc hs
  generalize hx : s.r1 = y at hc
  cases hc with
  | var hn hN hres =>
    obtain ⟨F, s1, e1, e2, e3⟩ := moduleVariable_ok hw hs.whole hn hN hr.room
    rw [hl] at e3
    have hw1 := e1.world hw
    obtain ⟨g1, g2, g3⟩ := find_holds hw1 hv
    have ha := (e1.adv e2 W).trans ((alike_r1 s1 (s1.cell (W.loc l)).cdr).adv W)
    refine (Sub.retVal (hr.adv (k' := 0) ha (Nat.le_refl _)) ((alike_r1 s1 _).world hw1)
      (g2.later ((alike_r1 s1 _).adv W).later)).adv ha (fun x gp mp => ⟨x, .fuel (fun _ => moves_var x gp mp hw hs.whole (by rw [hx]; exact hn) (by rw [hx]; exact hN) hr.room) F fun fuel hf => ?_⟩) (Nat.le_refl _)
    simp only [step, hx, St.rd_ok hn.text.valid, ok_bind, hn.tag]
    rw [if_neg (fun h => hres (h.imp id (Or.imp id (Or.imp id Or.inl)))), moduleRef, e3 fuel hf]
    simp only [ok_bind, Option.map_some, Option.getD_some, if_neg g3, St.cdr_ok g1, assertDefined, if_neg (g2.ne_undefined hw1)]
  | global hg =>
    obtain ⟨m, h1, h2, h3⟩ := global_find hw hg hs
    rw [hl] at h1
    cases h1
    obtain ⟨g1, g2, g3⟩ := find_holds hw hv
    have ha := (alike_r1 s (s.cell (W.loc l)).cdr).adv W
    refine (Sub.retVal (hr.adv (k' := 1) ha (Nat.le_refl _)) ((alike_r1 s _).world hw)
      (g2.later ha.later)).adv ha (fun x gp mp => ⟨x, .one (fun _ => moves_global x gp mp (by rw [hx]; exact hg.tag) (by rw [hx, h3]; exact (hw.pair l h2).2)) fun fuel => ?_⟩) (by omega)
    simp only [step, hx, St.rd_ok hg.valid, ok_bind, hg.tag, h3, St.cdr_ok g1]

/-- The state after `makeClosure`. -/
theorem makeClosure_ok {args body a : Int} (hr : Room s 4) : ∃ s', makeClosure s args body a = ok (s.free + 3, s') ∧ Ext s s' ∧
    s'.free = s.free + 4 ∧ s'.cell s.free = { tag := .pair, car := c_circular, cdr := a } ∧
    s'.cell (s.free + 1) = { tag := .pair, car := args, cdr := body } ∧
    s'.cell (s.free + 2) = { tag := .pair, car := s.free, cdr := s.free + 1 } ∧
    s'.cell (s.free + 3) = { tag := .closure, car := c_f, cdr := s.free + 2 } := by
  have e1 := push_ext s { tag := .pair, car := c_circular, cdr := a }
  have r1 : Room (s.push { tag := .pair, car := c_circular, cdr := a }) 3 := hr.step e1 (by simp; omega)
  have c1 : (s.push { tag := .pair, car := c_circular, cdr := a }).cell s.free = { tag := .pair, car := c_circular, cdr := a } := by simp
  have f1 : (s.push { tag := .pair, car := c_circular, cdr := a }).free = s.free + 1 := by simp
  unfold makeClosure
  rw [cons_ok (hr.mono (by omega)), ok_bind]
  simp only []
  generalize s.push { tag := .pair, car := c_circular, cdr := a } = s1 at *
  have e2 := push_ext s1 { tag := .pair, car := args, cdr := body }
  have r2 : Room (s1.push { tag := .pair, car := args, cdr := body }) 2 := r1.step e2 (by simp; omega)
  have c2 : (s1.push { tag := .pair, car := args, cdr := body }).cell s1.free = { tag := .pair, car := args, cdr := body } := by simp
  have f2 : (s1.push { tag := .pair, car := args, cdr := body }).free = s1.free + 1 := by simp
  rw [cons_ok (r1.mono (by omega)), ok_bind]
  simp only []
  generalize s1.push { tag := .pair, car := args, cdr := body } = s2 at *
  have e3 := push_ext s2 { tag := .pair, car := s.free, cdr := s1.free }
  have r3 : Room (s2.push { tag := .pair, car := s.free, cdr := s1.free }) 1 := r2.step e3 (by simp; omega)
  have c3 : (s2.push { tag := .pair, car := s.free, cdr := s1.free }).cell s2.free = { tag := .pair, car := s.free, cdr := s1.free } := by simp
  have f3 : (s2.push { tag := .pair, car := s.free, cdr := s1.free }).free = s2.free + 1 := by simp
  rw [cons_ok (r2.mono (by omega)), ok_bind]
  simp only []
  generalize s2.push { tag := .pair, car := s.free, cdr := s1.free } = s3 at *
  have e4 := push_ext s3 { tag := .closure, car := c_f, cdr := s2.free }
  have c4 : (s3.push { tag := .closure, car := c_f, cdr := s2.free }).cell s3.free = { tag := .closure, car := c_f, cdr := s2.free } := by simp
  have f4 : (s3.push { tag := .closure, car := c_f, cdr := s2.free }).free = s3.free + 1 := by simp
  rw [makeCell_ok r3]
  generalize s3.push { tag := .closure, car := c_f, cdr := s2.free } = s4 at *
  have g1 : s1.free = s.free + 1 := f1
  have g2 : s2.free = s.free + 2 := by omega
  have g3 : s3.free = s.free + 3 := by omega
  refine ⟨s4, by rw [g3], e1.trans (e2.trans (e3.trans e4)), by omega, ?_, ?_, ?_, ?_⟩
  · rw [e4.grow.same _ (by omega), e3.grow.same _ (by omega), e2.grow.same _ (by omega), c1]
  · rw [e4.grow.same _ (by omega), e3.grow.same _ (by omega), ← g1, c2]
  · rw [e4.grow.same _ (by omega), ← g2, c3, g1]
  · rw [← g3, c4, g2]

/-- New pairs never change. -/
theorem fresh_pair {p : Int} (hw : World s W mes σ) (h1 : s.free ≤ p) (h2 : p < s'.free)
    (ht : (s'.cell p).tag = .pair) : FixedPair s' W.chg p := by
  have hb := hw.base
  simp only [c_symbol_max] at hb
  refine ⟨by simp only [c_nil]; omega, ⟨by omega, h2⟩, ht, fun hc => ?_⟩
  have := hw.below p hc
  omega

theorem lam_ok {fs : List Int} {r : Option Int} {b : List Expr} (hr : Ready s 4 d) (hw : World s W mes σ)
    (hc : IsCode s W mes N s.r1 (.lam fs r b)) (hs0 : FixedPair s W.chg s.r0) (hs1 : IsEnv s W (N.except (fs ++ r.toList)) (s.cell s.r0).cdr ρ) (hs2 : ¬ N c_closure)
    (hs3 : ∀ x, N.free x → ρ x = none) : Sub mv K mes .eval 4 σ (Gives mes (.clo fs r b ρ)) W s := by
  cases hc with
  | lam hp hh h1 hf hb hne =>
    obtain ⟨s1, e1, e2, e3, c0, c1, c2, c3⟩ := makeClosure_ok (args := (s.cell (s.cell s.r1).cdr).car)
      (body := (s.cell (s.cell s.r1).cdr).cdr) (a := s.r0) hr.room
    have hl := e2.grow.later W
    have p0 := fresh_pair (s' := s1) hw (p := s.free) (by omega) (by omega) (by rw [c0])
    have p1 := fresh_pair (s' := s1) hw (p := s.free + 1) (by omega) (by omega) (by rw [c1])
    have p2 := fresh_pair (s' := s1) hw (p := s.free + 2) (by omega) (by omega) (by rw [c2])
    have hv : IsVal s1 W mes (s.free + 3) (.clo fs r b ρ) := by
      refine .clo (N := N) ⟨by have := hr.base; simp only [c_symbol_max] at this; omega, by omega⟩ (by rw [c3]) (fun hc => ?_)
        (by rw [c3]; exact p2) (by rw [c3]; simp only; rw [c2]; exact p0)
        (by rw [c3]; simp only; rw [c2]; simp only; rw [c0]; exact hs0.later hl)
        (by rw [c3]; simp only; rw [c2]; simp only; rw [c0]; simp only; rw [hs0.cell_eq hl]; exact hs1.later hl)
        (by rw [c3]; simp only; rw [c2]; exact p1)
        (by rw [c3]; simp only; rw [c2]; simp only; rw [c1]; exact hf.later hl)
        (by rw [c3]; simp only; rw [c2]; simp only; rw [c1]; exact hb.later hl) hne hs2 hs3
      have := hw.below _ hc; omega
    have ha := (e2.adv (by omega) W (j := 4)).trans ((alike_r1 s1 (s.free + 3)).adv W)
    refine (Sub.retVal (hr.adv (k' := 0) ha (Nat.le_refl _)) ((alike_r1 s1 _).world (e2.world hw))
      (hv.later ((alike_r1 s1 _).adv W).later)).adv ha (fun x gp mp => ⟨x, .one (fun _ => moves_lambda _ _ _ hp.tag hh h1.tag) fun fuel => ?_⟩) (Nat.le_refl _)
    simp only [step, St.rd_ok hp.valid, ok_bind, hp.tag, hh, St.rd_ok h1.valid]
    simp only [e1, ok_bind]
    rfl

theorem evalOk_lam (fs : List Int) (r : Option Int) (b : List Expr) : EvalOk mv K mes 4 d ρ σ (.lam fs r b) (.clo fs r b ρ) σ :=
  fun _ _ _ hr hw hc hs => lam_ok hr hw hc hs.pair (hs.env.except _) hs.mark hs.free

/-! ### Conditionals -/

/-- The condition is evaluated in a new frame. -/
theorem if_start {n : Nat} (hr : Ready s n (d + 1)) (hp : FixedPair s W.chg s.r1) (hh : (s.cell s.r1).car = c_symbol_if)
    (h1 : FixedPair s W.chg (s.cell s.r1).cdr) (x : Int) (gp mp : Option Bool) : Walk mv K ⟨.eval, s, x, gp, mp⟩
      ⟨.eval, ({ s with r1 := (s.cell s.r1).cdr } : St).pushed (s.cell (s.cell s.r1).cdr).car (s.cell s.r1).cdr s.r0 c_vm_if_expr, x, gp, mp⟩ := by
  have a1 := (alike_r1 s (s.cell s.r1).cdr).adv W
  refine Walk.trans (v' := ⟨.vmIf, { s with r1 := (s.cell s.r1).cdr }, x, gp, mp⟩) (.one (fun _ => moves_evalIf _ _ _ hp.tag hh) fun fuel => ?_) (.one (fun _ => moves_if _ _ _ h1.tag) fun fuel => ?_)
  · simp only [step, St.rd_ok hp.valid, ok_bind, hp.tag, hh]
    rfl
  · have e1 : ({ s with r1 := (s.cell s.r1).cdr } : St).rd (s.cell s.r1).cdr = ok (s.cell (s.cell s.r1).cdr) := St.rd_ok h1.valid
    simp only [step, e1, ok_bind]
    rw [(hr.adv (k' := n) a1 (by omega)).pushCc]
    rfl

/-- The condition is evaluated in a new frame; then `ifExpr` chooses. -/
theorem if_call {e0 : Expr} {w : Value} {k1 k2 : Nat} {R : Label → Nat → Ghost → St → Prop} (hR : Outcome mv K mes R) (hc : EvalOk mv K mes k1 d ρ σ e0 w σ₁)
    (hr : Ready s (k1 + k2) (d + 1)) (hw : World s W mes σ) (hs : IsScope s W N s.r0 ρ)
    (hp : FixedPair s W.chg s.r1) (hh : (s.cell s.r1).car = c_symbol_if) (h1 : FixedPair s W.chg (s.cell s.r1).cdr)
    (i0 : IsCode s W mes N (s.cell (s.cell s.r1).cdr).car e0)
    (hn : ∀ W' s', Later W s W' s' → Ready s' k2 (d + 1) → s'.r2 = (s.cell s.r1).cdr → IsScope s' W' N s'.r0 ρ → World s' W' mes σ₁ →
      Gives mes w W' s' → R .ifExpr k2 W' s') : R .eval (k1 + k2) W s := by
  have a1 := (alike_r1 s (s.cell s.r1).cdr).adv W
  have hp1 : Grow s (({ s with r1 := (s.cell s.r1).cdr } : St).pushed (s.cell (s.cell s.r1).cdr).car (s.cell s.r1).cdr s.r0 c_vm_if_expr) :=
    (alike_r1 s _).grow.trans (grow_pushed ..)
  have hl1 := hp1.later W
  refine hR.call (hc W _ N ((hr.adv (k' := k1) a1 (by omega)).pushed ..) (hw.grow hp1 rfl) (i0.later hl1) (hs.later hl1)) a1
    (fun x gp mp => ⟨x, if_start hr hp hh h1 x gp mp⟩) (l'' := .ifExpr) (by decide) (k' := k2) (by omega) ?_
  · intro W' s' ha hr0 hr2 hw' hg
    have hlat := a1.later.trans ha.later
    have hs0 : s'.r0 = s.r0 := hr0
    exact hn W' s' hlat ((hr.adv (k' := k1 + k2) a1 (by omega)).adv (k' := k2) ha (by omega)) hr2 (by rw [hs0]; exact hs.later hlat) hw' hg

/-- `ifExpr` with a true value. -/
theorem if_then {e : Expr} {w v : Value} (he : EvalOk mv K mes k d ρ σ e v σ') (hr : Ready s k d) (hw : World s W mes σ)
    (hs : IsScope s W N s.r0 ρ) (hg : Gives mes w W s) (hne : w ≠ .obj c_f) (h1 : FixedPair s W.chg s.r2)
    (h2 : FixedPair s W.chg (s.cell s.r2).cdr) (i1 : IsCode s W mes N (s.cell (s.cell s.r2).cdr).car e) :
    Sub mv K mes .ifExpr k σ' (Gives mes v) W s := by
  have hnf : s.r1 ≠ c_f := fun h => hne ((Spec.IsVal.false_iff hg hw).1 h)
  have a2 := (alike_r1 s (s.cell (s.cell s.r2).cdr).car).adv W
  refine (he W _ N (hr.adv a2 (by omega)) ((alike_r1 s _).world hw) (i1.later a2.later) (hs.later a2.later)).adv a2
    (fun x gp mp => ⟨x, .one (fun _ => moves_ifExpr _ _ _ h1.tag h2.tag fun h => absurd h hnf) fun fuel => ?_⟩) (by omega)
  simp only [step, St.cdr_ok h1.valid, ok_bind, St.rd_ok h2.valid]
  rw [if_pos hnf]

theorem evalOk_if {e0 e1 e2 e : Expr} {w v : Value} {k1 k2 : Nat} (hc : EvalOk mv K mes k1 d ρ σ e0 w σ₁)
    (he : EvalOk mv K mes k2 (d + 1) ρ σ₁ e v σ₂) (h : w ≠ .obj c_f ∧ e = e1 ∨ w = .obj c_f ∧ e = e2) :
    EvalOk mv K mes (k1 + k2) (d + 1) ρ σ (.ite e0 e1 e2) v σ₂ := by
  intro W s N hr hw hco hs
  cases hco with
  | ite hp hh h1 i0 h2 i1 h3 i2 =>
    refine if_call (.sub ..) hc hr hw hs hp hh h1 i0 fun W' s' hlat hr' hr2 hs' hw' hg => ?_
    have h1' := h1.later hlat
    have h2' := h2.later hlat
    have h3' := h3.later hlat
    have c1 := h1.cell_eq hlat
    have c2 := h2.cell_eq hlat
    have c3 := h3.cell_eq hlat
    have i1' := i1.later hlat
    have i2' := i2.later hlat
    rw [← hr2] at h1' c1
    rw [← hr2, ← c1] at h2' h3' c2 c3 i1' i2'
    rw [← c2] at h3' c3 i1' i2'
    rw [← c3] at i2'
    rcases h with ⟨hne, rfl⟩ | ⟨heq, rfl⟩
    · exact if_then he hr' hw' hs' hg hne h1' h2' i1'
    · have hf : s'.r1 = c_f := (Spec.IsVal.false_iff hg hw').2 heq
      have a2 := (alike_r1 s' (s'.cell (s'.cell (s'.cell s'.r2).cdr).cdr).car).adv W'
      refine (he W' _ N (hr'.adv a2 (by omega)) ((alike_r1 s' _).world hw') (i2'.later a2.later) (hs'.later a2.later)).adv a2
        (fun x gp mp => ⟨x, .one (fun _ => moves_ifExpr _ _ _ h1'.tag h2'.tag fun _ _ => h3'.tag) fun fuel => ?_⟩) (by omega)
      simp only [step, St.cdr_ok h1'.valid, ok_bind, St.rd_ok h2'.valid]
      rw [if_neg (fun h => h hf), if_pos h3'.ne, St.car_ok h3'.valid, ok_bind]

theorem evalOk_ifTrue {e0 e1 : Expr} {w v : Value} {k1 k2 : Nat} (hc : EvalOk mv K mes k1 d ρ σ e0 w σ₁) (hne : w ≠ .obj c_f)
    (he : EvalOk mv K mes k2 (d + 1) ρ σ₁ e1 v σ₂) : EvalOk mv K mes (k1 + k2) (d + 1) ρ σ (.ifOnly e0 e1) v σ₂ := by
  intro W s N hr hw hco hs
  cases hco with
  | ifOnly hp hh h1 i0 h2 i1 h3 =>
    refine if_call (.sub ..) hc hr hw hs hp hh h1 i0 fun W' s' hlat hr' hr2 hs' hw' hg => ?_
    have h1' := h1.later hlat
    have h2' := h2.later hlat
    have c1 := h1.cell_eq hlat
    have c2 := h2.cell_eq hlat
    have i1' := i1.later hlat
    rw [← hr2] at h1' c1
    rw [← hr2, ← c1] at h2' c2 i1'
    rw [← c2] at i1'
    exact if_then he hr' hw' hs' hg hne h1' h2' i1'

theorem isVal_unspecified (hw : World s W mes σ) : IsVal s W mes c_unspecified (.obj c_unspecified) := by
  have h := World.fixed_cell hw (a := c_unspecified) (by decide) (by decide)
  exact .obj h.1 (by rw [h.2]; decide) (by decide)

theorem evalOk_ifFalse {e0 e1 : Expr} {k1 : Nat} (hc : EvalOk mv K mes k1 d ρ σ e0 (.obj c_f) σ₁) :
    EvalOk mv K mes k1 (d + 1) ρ σ (.ifOnly e0 e1) (.obj c_unspecified) σ₁ := by
  intro W s N hr hw hco hs
  cases hco with
  | ifOnly hp hh h1 i0 h2 i1 h3 =>
    refine if_call (.sub ..) (k2 := 0) hc hr hw hs hp hh h1 i0 fun W' s' hlat hr' hr2 hs' hw' hg => ?_
    have h1' := h1.later hlat
    have h2' := h2.later hlat
    have c1 := h1.cell_eq hlat
    have c2 := h2.cell_eq hlat
    rw [← hr2] at h1' c1
    rw [← hr2, ← c1] at h2' c2 h3
    rw [← c2] at h3
    have hf : s'.r1 = c_f := (Spec.IsVal.false_iff hg hw').2 rfl
    have a2 := (alike_r1 s' c_unspecified).adv W'
    have hw2 := (alike_r1 s' c_unspecified).world hw'
    refine (Sub.retVal (hr'.adv (k' := 0) a2 (by omega)) hw2 (isVal_unspecified hw2)).adv a2
        (fun x gp mp => ⟨x, .one (fun _ => moves_ifExpr _ _ _ h1'.tag h2'.tag fun _ h => absurd h3 h) fun fuel => ?_⟩) (by omega)
    simp only [step, St.cdr_ok h1'.valid, ok_bind, St.rd_ok h2'.valid]
    rw [if_neg (fun h => h hf), if_neg (fun h => h h3)]

/-! ### Assignment -/

/-- The value is evaluated in a new frame. -/
theorem set_start {n : Nat} (hr : Ready s n (d + 1)) (hp : FixedPair s W.chg s.r1) (hh : (s.cell s.r1).car = c_symbol_set_x)
    (h1 : FixedPair s W.chg (s.cell s.r1).cdr) (h2 : FixedPair s W.chg (s.cell (s.cell s.r1).cdr).cdr) (x : Int) (gp mp : Option Bool) :
    Walk mv K ⟨.eval, s, x, gp, mp⟩
      ⟨.eval, s.pushed (s.cell (s.cell (s.cell s.r1).cdr).cdr).car s.r1 s.r0 c_vm_eval_set_x, x, gp, mp⟩ := by
  refine .one (fun _ => moves_set _ _ _ hp.tag hh h1.tag h2.tag) fun fuel => ?_
  simp only [step, St.rd_ok hp.valid, ok_bind, hp.tag, hh, St.cdr_ok h1.valid, St.car_ok h2.valid]
  rw [hr.pushCc]
  rfl

/-- The value is in `r1`. -/
theorem set_call {x : Int} {e : Expr} {v : Value} {k1 k2 : Nat} {R : Label → Nat → Ghost → St → Prop} (hR : Outcome mv K mes R)
    (he : EvalOk mv K mes k1 d ρ σ e v σ') (hr : Ready s (k1 + k2) (d + 1)) (hw : World s W mes σ)
    (hco : IsCode s W mes N s.r1 (.set x e)) (hs : IsScope s W N s.r0 ρ)
    (hk : ∀ W' s', Ready s' k2 (d + 1) → World s' W' mes σ' → IsScope s' W' N s'.r0 ρ → FixedPair s' W'.chg s'.r2 →
      FixedPair s' W'.chg (s'.cell s'.r2).cdr → IsTarget s' W' N (s'.cell (s'.cell s'.r2).cdr).car x → Gives mes v W' s' →
      R .evalSetX k2 W' s') : R .eval (k1 + k2) W s := by
  cases hco with
  | set hp hh h1 hx h2 hc =>
    have hg1 := grow_pushed s (s.cell (s.cell (s.cell s.r1).cdr).cdr).car s.r1 s.r0 c_vm_eval_set_x
    have hl1 := hg1.later W
    refine hR.call (he W _ N ((hr.mono (k' := k1) (by omega) (Nat.le_refl _)).pushed ..) (hw.grow hg1 rfl) (hc.later hl1) (hs.later hl1))
      (.refl W s) (fun y gp mp => ⟨y, set_start hr hp hh h1 h2 y gp mp⟩) (l'' := .evalSetX) (by decide) (k' := k2) (by omega) ?_
    intro W' s' ha hr0 hr2 hw' hg
    have hlat := ha.later
    have cp := hp.cell_eq hlat
    have c1 := h1.cell_eq hlat
    exact hk W' s' (hr.adv (k' := k2) ha (by omega)) hw' (hs.at hlat hr0) (by rw [hr2]; exact hp.later hlat)
      (by rw [hr2, cp]; exact h1.later hlat) (by rw [hr2, cp, c1]; exact hx.later hlat) hg

/-- Storing a value in a location. -/
theorem set_store {l : Nat} {v : Value} (hw : World s W mes σ) (hlt : l < W.count) (hv : IsVal s W mes y v) :
    let s' : St := { s.upd (W.loc l) { s.cell (W.loc l) with cdr := y } with r1 := c_unspecified }
    World s' W mes { σ with vals := σ.vals.set l v } ∧ Adv W s W s' 0 ∧
      setCdrX s (W.loc l) y = ok (c_unspecified, s.upd (W.loc l) { s.cell (W.loc l) with cdr := y }) := by
  obtain ⟨g1, g2⟩ := hw.pair l hlt
  obtain ⟨k1', k2'⟩ := hw.set hlt hv
    (s' := { s.upd (W.loc l) { s.cell (W.loc l) with cdr := y } with r1 := c_unspecified })
    (fun b => by
      by_cases hb : b = W.loc l
      · subst hb; simp
      · rw [if_neg hb]; exact St.upd_cell_ne _ hb) rfl rfl
  refine ⟨k2', ⟨⟨⟨rfl, rfl, rfl, rfl, rfl⟩, rfl, fun _ _ _ => rfl⟩, k1', by show s.free ≤ s.free + ((0 : Nat) : Int); omega⟩, ?_⟩
  simp only [setCdrX, St.setCdr, ok_bind, St.rd_ok g1, g2, St.put_ok _ g1, ne_eq, not_true, if_false]

theorem evalOk_set {x : Int} {e : Expr} {v : Value} {l : Nat} {k1 : Nat} (he : EvalOk mv K mes k1 d ρ σ e v σ')
    (hl : σ'.find ρ x = some l) :
    EvalOk mv K mes (k1 + 1) (d + 1) ρ σ (.set x e) (.obj c_unspecified) { σ' with vals := σ'.vals.set l v } := by
  intro W s N hr hw hco hs
  refine set_call (.sub ..) he hr hw hco hs fun W' s' hr' hw' hs' hp' h1' hx hg => ?_
  generalize hy : (s'.cell (s'.cell s'.r2).cdr).car = y at hx
  cases hx with
  | name hi' hN =>
    obtain ⟨F, s1, e1, e2, e3⟩ := moduleVariable_ok hw' hs'.whole hi' hN hr'.room
    rw [hl] at e3
    have hlt := find_lt hw' hs'.whole hN hl
    have hw1 := e1.world hw'
    obtain ⟨g1, g2⟩ := hw1.pair l hlt
    have gu : W'.loc l ≠ c_undefined := by
      intro h
      have := (World.fixed_cell hw1 (a := c_undefined) (by decide) (by decide)).2
      rw [← h, g2] at this
      simp only [h, c_undefined] at this
      cases this
    obtain ⟨k2', ha2, e4⟩ := set_store hw1 hlt (Spec.IsVal.later hg (e1.grow.later W'))
    have ha3 := (e1.adv (j := 1) (by omega) W').trans ha2
    refine (Sub.retVal (hr'.adv (k' := 0) ha3 (by omega)) k2' (isVal_unspecified k2')).adv ha3
      (fun z gp mp => ⟨z, .fuel (fun _ => moves_evalSet z gp mp hw' hs'.whole hp'.tag h1'.tag (by rw [hy]; exact hi') (by rw [hy]; exact hN) hr'.room) F fun fuel hf => ?_⟩) (by omega)
    simp only [step, St.cdr_ok hp'.valid, ok_bind, St.car_ok h1'.valid, setEnvX, hy, St.rd_ok hi'.text.valid, hi'.tag]
    rw [e3 fuel hf]
    simp only [ok_bind, Option.map_some, Option.getD_some, assertDefined, if_neg gu, St.rd_ok g1, g2, e4, ne_eq, not_true, if_false, reduceCtorEq]
  | global hi =>
    obtain ⟨m, h1, hlt, h3⟩ := global_find hw' hi hs'
    rw [hl] at h1
    cases h1
    obtain ⟨g1, g2⟩ := hw'.pair l hlt
    obtain ⟨k2', ha2, e4⟩ := set_store hw' hlt hg
    refine (Sub.retVal (hr'.adv (k' := 1) ha2 (by omega)) k2' (isVal_unspecified k2')).adv ha2
      (fun z gp mp => ⟨z, .one (fun _ => moves_evalSetGlobal z gp mp hp'.tag h1'.tag (by rw [hy]; exact hi.tag) (by rw [hy, h3]; exact g2)) fun fuel => ?_⟩) (by omega)
    simp only [step, St.cdr_ok hp'.valid, ok_bind, St.car_ok h1'.valid, setEnvX, hy, St.rd_ok hi.valid, hi.tag, if_true, h3,
      St.rd_ok g1, g2, e4, ne_eq, not_true, if_false]

/-- The pairs from `p` to `q`, with the expressions `es`. -/
inductive CodeSeg (s : St) (W : Ghost) (mes : Bool) (N : Idents) (q : Int) : Int → List Expr → Prop
  | nil : CodeSeg s W mes N q q []
  | cons {p : Int} {e : Expr} {es : List Expr} (hp : FixedPair s W.chg p) (he : IsCode s W mes N (s.cell p).car e)
      (hl : (s.cell (s.cell p).car).car ≠ c_symbol_primitive_load) (h : CodeSeg s W mes N q (s.cell p).cdr es) :
      CodeSeg s W mes N q p (e :: es)

theorem CodeSeg.later {q p : Int} {es : List Expr} (hc : CodeSeg s W mes N q p es) (h : Later W s W' s') :
    CodeSeg s' W' mes N q p es := by
  induction hc with
  | nil => exact .nil
  | cons hp he hl _ ih =>
    have e := hp.cell_eq h
    exact .cons (hp.later h) (by rw [e]; exact he.later h) (by rw [e, h.keep he.valid he.fixed]; exact hl) (by rw [e]; exact ih)

theorem Spec.IsSeq.seg {p : Int} {es : List Expr} : IsSeq s W mes N p es → CodeSeg s W mes N c_nil p es
  | .nil => .nil
  | .cons hp he hl h => .cons hp he hl h.seg

theorem CodeSeg.seq {p : Int} {es : List Expr} (h : CodeSeg s W mes N c_nil p es) : IsSeq s W mes N p es := by
  induction h with
  | nil => exact .nil
  | cons hp he hl _ ih => exact .cons hp he hl ih

theorem Spec.IsSeq.cons_inv {p : Int} {e : Expr} {es : List Expr} (h : IsSeq s W mes N p (e :: es)) :
    FixedPair s W.chg p ∧ IsCode s W mes N (s.cell p).car e ∧ IsSeq s W mes N (s.cell p).cdr es := by
  cases h with
  | cons hp he _ h => exact ⟨hp, he, h⟩

/-! ### Operands -/

theorem argsOk_nil : ArgsOk mv K mes 0 d ρ σ [] [] σ := by
  intro W s N hr hw hc hs
  generalize hx : s.r1 = p at hc
  cases hc
  refine (Sub.ret hr hw fun s' _ he => ?_).adv (.refl W s) (fun x gp mp => ⟨x, .one (fun _ => moves_evlis ..) fun fuel => ?_⟩) (by omega)
  · unfold GivesAll; rw [he, hx]; exact .nil
  · simp only [step, hx, ↓reduceIte]

/-- The first operand is evaluated in a new frame. -/
theorem evlis_start {n : Nat} (hr : Ready s n (d + 1)) (hp : FixedPair s W.chg s.r1) (x : Int) (gp mp : Option Bool) :
    Walk mv K ⟨.evlis, s, x, gp, mp⟩ ⟨.eval, s.pushed (s.cell s.r1).car s.r1 s.r0 c_vm_evlis2, x, gp, mp⟩ := by
  refine .one (fun _ => moves_evlis ..) fun fuel => ?_
  simp only [step, if_neg hp.ne, St.rd_ok hp.valid, ok_bind, hp.tag, ne_eq, not_true, if_false, hr.pushCc]

theorem argsOk_cons {e : Expr} {es : List Expr} {v : Value} {vs : List Value} {k1 k2 : Nat} (he : EvalOk mv K mes k1 d ρ σ e v σ₁)
    (hes : ArgsOk mv K mes k2 d ρ σ₁ es vs σ₂) : ArgsOk mv K mes (k1 + k2 + 1) (d + 1) ρ σ (e :: es) (v :: vs) σ₂ := by
  intro W s N hr hw hc hs
  obtain ⟨hp, hc, hcs⟩ := hc.cons_inv
  · have hg1 := grow_pushed s (s.cell s.r1).car s.r1 s.r0 c_vm_evlis2
    have hl1 := hg1.later W
    refine Sub.callAdv (he W _ N ((hr.mono (k' := k1) (by omega) (Nat.le_refl _)).pushed ..) (hw.grow hg1 rfl) (hc.later hl1) (hs.later hl1))
      (.refl W s) (fun y gp mp => ⟨y, evlis_start hr hp y gp mp⟩) (l'' := .evlis2) (by decide) (k' := k2 + 1) (by omega) ?_
    · intro W1 s1 ha1 hr01 hr21 hw1 hv1
      have hr1 := hr.adv (k' := k2 + 1) ha1 (by omega)
      have hp1 := hp.later ha1.later
      have cp := hp.cell_eq ha1.later
      have hcs1 := hcs.later ha1.later
      have hs1 : IsScope s1 W1 N s1.r0 ρ := by rw [hr01]; exact hs.later ha1.later
      have hg2 := grow_pushed s1 (s.cell s.r1).cdr s1.r1 s1.r0 c_vm_evlis3
      have hl2 := hg2.later W1
      refine Sub.callAdv (hes W1 _ N ((hr1.mono (k' := k2) (by omega) (Nat.le_refl _)).pushed ..) (hw1.grow hg2 rfl) (hcs1.later hl2)
        (hs1.later hl2)) (.refl W1 s1) (fun y gp mp => ⟨y, .one (fun _ => moves_evlis2 _ _ _ (by rw [hr21]; exact hp1.tag)) fun fuel => ?_⟩) (l'' := .evlis3) (by decide) (k' := 1) (by omega) ?_
      · simp only [step, hr21, St.cdr_ok hp1.valid, ok_bind, cp, hr1.pushCc]
      · intro W2 s2 ha2 hr02 hr22 hw2 hv2
        have hr2 := hr1.adv (k' := 1) ha2 (by omega)
        have ev : IsVal s2 W2 mes s2.r2 v := by rw [hr22]; exact Spec.IsVal.later hv1 ha2.later
        have e3 := push_ext s2 { tag := .pair, car := s2.r2, cdr := s2.r1 }
        have f3 : (s2.push { tag := .pair, car := s2.r2, cdr := s2.r1 }).free = s2.free + 1 := by simp
        have c3 : (s2.push { tag := .pair, car := s2.r2, cdr := s2.r1 }).cell s2.free = { tag := .pair, car := s2.r2, cdr := s2.r1 } := by simp
        have hcons := cons_ok hr2.room s2.r2 s2.r1
        generalize s2.push { tag := .pair, car := s2.r2, cdr := s2.r1 } = s3 at *
        have hp3 : FixedPair s3 W2.chg s2.free := fresh_pair hw2 (by omega) (by omega) (by rw [c3])
        have a3 := (e3.adv (j := 1) (by omega) W2).trans ((alike_r1 s3 s2.free).adv W2)
        have hvs : IsVals s3 W2 mes s2.free (v :: vs) :=
          .cons hp3 (by rw [c3]; exact ev.later (e3.grow.later W2)) (by rw [c3]; exact Spec.IsVals.later hv2 (e3.grow.later W2))
        refine (Sub.ret (hr2.adv (k' := 0) a3 (by omega)) ((alike_r1 s3 s2.free).world (e3.world hw2)) fun s' hg he => ?_).adv a3
          (fun y gp mp => ⟨y, .one (fun _ => moves_evlis3 ..) fun fuel => ?_⟩) (by omega)
        · unfold GivesAll
          rw [he]
          exact (hvs.later ((alike_r1 s3 s2.free).adv W2).later).later (hg.later W2)
        · simp only [step, hcons, ok_bind]

/-! ### Sequences -/

/-- From `l` on the machine evaluates a sequence up to `q`, where it is at the start of the loop again. -/
def Pass (mv : Prop) (K : Calls) (mes : Bool) (l : Label) (k : Nat) (σ' : Store) (q : Int) (W : Ghost) (s : St) : Prop :=
  ∀ x gp mp, ∃ W' s' x', Walk mv K ⟨l, s, x, gp, mp⟩ ⟨.beginLoop, s', x', gp, mp⟩ ∧ s'.r1 = q ∧ s'.r0 = s.r0 ∧ Adv W s W' s' k ∧
    World s' W' mes σ'

/-- What evaluating a sequence that ends at `q` does: at the end of the list the value is returned. -/
def Through (mv : Prop) (K : Calls) (mes : Bool) (l : Label) (k : Nat) (σ' : Store) (v : Value) (q : Int) (W : Ghost) (s : St) : Prop :=
  if q = c_nil then Sub mv K mes l k σ' (Gives mes v) W s else Pass mv K mes l k σ' q W s

theorem Through.adv {l l' : Label} {k j k' : Nat} {v : Value} {q : Int} (h : Through mv K mes l' k σ' v q W' s')
    (ha : Adv W s W' s' j) (h0 : s'.r0 = s.r0) (hs : ∀ x gp mp, ∃ x', Walk mv K ⟨l, s, x, gp, mp⟩ ⟨l', s', x', gp, mp⟩) (hk : j + k ≤ k') :
    Through mv K mes l k' σ' v q W s := by
  unfold Through at *
  split
  · rename_i hq
    rw [if_pos hq] at h
    exact h.adv ha hs hk
  · rename_i hq
    rw [if_neg hq] at h
    intro x gp mp
    obtain ⟨x1, g⟩ := hs x gp mp
    obtain ⟨W2, s2, x2, h1, h2, h3, h4, h5⟩ := h x1 gp mp
    exact ⟨W2, s2, x2, g.trans h1, h2, h3.trans h0, (ha.trans h4).mono hk, h5⟩

theorem Pass.through {l : Label} {k k' n : Nat} {v : Value} {q q' : Int} (h : Pass mv K mes l k σ₁ q W s) (hn : k + k' ≤ n)
    (hk : ∀ W' s', Adv W s W' s' k → s'.r1 = q → s'.r0 = s.r0 → World s' W' mes σ₁ → Through mv K mes .beginLoop k' σ' v q' W' s') :
    Through mv K mes l n σ' v q' W s := by
  unfold Through at *
  split
  · rename_i hq
    intro x gp mp
    obtain ⟨W2, s2, x2, h1, h2, h3, h4, h5⟩ := h x gp mp
    have hk' := hk W2 s2 h4 h2 h3 h5
    rw [if_pos hq] at hk'
    obtain ⟨W3, s3, x3, i1, i2, i3, i4, i5, i6⟩ := hk' x2 gp mp
    exact ⟨W3, s3, x3, h1.trans i1, h4.keeps.popped i2, h4.later.trans i3, i4, by have := h4.free; omega, i6⟩
  · rename_i hq
    intro x gp mp
    obtain ⟨W2, s2, x2, h1, h2, h3, h4, h5⟩ := h x gp mp
    have hk' := hk W2 s2 h4 h2 h3 h5
    rw [if_neg hq] at hk'
    obtain ⟨W3, s3, x3, i1, i2, i3, i4, i5⟩ := hk' x2 gp mp
    exact ⟨W3, s3, x3, h1.trans i1, i2, i3.trans h3, (h4.trans i4).mono hn, i5⟩

/-- The machine evaluates the sequence `es` from the label `l`.  When the sequence is not the end of the list its last
expression is evaluated in a new frame too. -/
def SeqOk (mv : Prop) (K : Calls) (mes : Bool) (l : Label) (k d : Nat) (ρ : Locals) (σ : Store) (es : List Expr) (v : Value) (σ' : Store) : Prop :=
  ∀ W s N q, Ready s k (if q = c_nil then d else d + 1) → World s W mes σ → CodeSeg s W mes N q s.r1 es → IsScope s W N s.r0 ρ →
    Through mv K mes l k σ' v q W s

theorem SeqOk.mono {l : Label} {k' : Nat} {es : List Expr} {v : Value} (h : SeqOk mv K mes l k d ρ σ es v σ') (hk : k ≤ k') :
    SeqOk mv K mes l k' d ρ σ es v σ' := fun W s N q hr hw hc hs =>
  (h W s N q (hr.mono hk (Nat.le_refl _)) hw hc hs).adv (.refl W s) rfl (fun x _ _ => ⟨x, .refl _⟩) (by omega)

/-- An expression that is not the last one is evaluated in a new frame. -/
theorem rest_start {n : Nat} (hr : Ready s n (d + 1)) (hp : FixedPair s W.chg s.r1) (hne : (s.cell s.r1).cdr ≠ c_nil) (x : Int)
    (gp mp : Option Bool) :
    Walk mv K ⟨.beginRest, s, x, gp, mp⟩ ⟨.eval, s.pushed (s.cell s.r1).car s.r1 s.r0 c_vm_begin_eval, x, gp, mp⟩ := by
  refine .one (fun _ => moves_beginRest _ _ _ hp.tag) fun fuel => ?_
  simp only [step, St.rd_ok hp.valid, ok_bind, if_neg hne, hr.pushCc]

theorem rest_pass {e : Expr} {w : Value} {k1 n : Nat} (he : EvalOk mv K mes k1 d ρ σ e w σ₁)
    (hr : Ready s n (d + 1)) (hw : World s W mes σ) (hs : IsScope s W N s.r0 ρ) (hp : FixedPair s W.chg s.r1)
    (hc : IsCode s W mes N (s.cell s.r1).car e) (hne : (s.cell s.r1).cdr ≠ c_nil) (hn : k1 ≤ n) :
    Pass mv K mes .beginRest k1 σ₁ (s.cell s.r1).cdr W s := by
  intro x gp mp
  have hg1 := grow_pushed s (s.cell s.r1).car s.r1 s.r0 c_vm_begin_eval
  have hl1 := hg1.later W
  obtain ⟨W2, s2, x2, h1, h2, h3, h4, h5, h6⟩ := he W _ N ((hr.mono (k' := k1) (by omega) (Nat.le_refl _)).pushed ..) (hw.grow hg1 rfl)
    (hc.later hl1) (hs.later hl1) x gp mp
  have hb := h2.back
  have hl2 : Later W s W2 s2 := hl1.trans h3
  have ha : Adv W s W2 s2 k1 := ⟨hb.keeps, hl2, h5⟩
  refine ⟨W2, { s2 with r1 := (s.cell s.r1).cdr }, s2.r1, (rest_start hr hp hne x gp mp).trans (h1.trans (.trans (.dispatch (l := .beginEval) ?_) (.one (fun _ => moves_beginEval _ _ _ (by rw [hb.r2]; exact (hp.later hl2).tag)) fun fuel => ?_))),
    rfl, hb.r0, (ha.trans ((alike_r1 s2 _).adv W2)).mono (by omega), (alike_r1 s2 _).world h4⟩
  · rw [hb.r3]; decide
  · simp only [step, hb.r2, St.cdr_ok (hp.later hl2).valid, ok_bind, hp.cell_eq hl2]

theorem rest_push {e : Expr} {w v : Value} {p q : Int} {k1 k2 n : Nat} (he : EvalOk mv K mes k1 d ρ σ e w σ₁)
    (hr : Ready s n (d + 1)) (hw : World s W mes σ) (hs : IsScope s W N s.r0 ρ) (hp : FixedPair s W.chg s.r1)
    (hc : IsCode s W mes N (s.cell s.r1).car e) (hq : (s.cell s.r1).cdr = p) (hne : p ≠ c_nil) (hn : k1 + k2 ≤ n)
    (hk : ∀ W' s', Adv W s W' s' k1 → s'.r1 = p → s'.r0 = s.r0 → World s' W' mes σ₁ → Through mv K mes .beginLoop k2 σ' v q W' s') :
    Through mv K mes .beginRest n σ' v q W s := by
  subst hq
  exact Pass.through (rest_pass he hr hw hs hp hc hne (by omega)) hn hk

/-- The last expression is evaluated in place. -/
theorem rest_last (hp : FixedPair s W.chg s.r1) (hx : (s.cell s.r1).cdr = c_nil) (x : Int) (gp mp : Option Bool) :
    Walk mv K ⟨.beginRest, s, x, gp, mp⟩ ⟨.eval, { s with r1 := (s.cell s.r1).car }, x, gp, mp⟩ := by
  refine .one (fun _ => moves_beginRest _ _ _ hp.tag) fun fuel => ?_
  simp only [step, St.rd_ok hp.valid, ok_bind, hx, ↓reduceIte]

theorem rest_one {e : Expr} {v : Value} (he : EvalOk mv K mes k d ρ σ e v σ') : SeqOk mv K mes .beginRest k d ρ σ [e] v σ' := by
  intro W s N q hr hw hc hs
  cases hc with
  | cons hp hc hl h =>
    generalize hx : (s.cell s.r1).cdr = p at h
    cases h
    by_cases hq : q = c_nil
    · subst hq
      have a1 := (alike_r1 s (s.cell s.r1).car).adv W
      unfold Through
      rw [if_pos rfl]
      rw [if_pos rfl] at hr
      refine (he W _ N (hr.adv a1 (by omega)) ((alike_r1 s _).world hw) (hc.later a1.later) (hs.later a1.later)).adv a1
        (fun x gp mp => ⟨x, rest_last hp hx x gp mp⟩) (by omega)
    · rw [if_neg hq] at hr
      refine rest_push he hr hw hs hp hc hx hq (k2 := 0) (by omega) fun W' s' ha h1 h0 hw' => ?_
      unfold Through
      rw [if_neg hq]
      exact fun x gp mp => ⟨W', s', x, .refl _, h1, rfl, .refl _ _, hw'⟩

theorem CodeSeg.ne {q p : Int} {es : List Expr} (h : CodeSeg s W mes N q p es) (hne : es ≠ []) : p ≠ c_nil := by
  cases h with
  | nil => exact absurd rfl hne
  | cons hp => exact hp.ne

theorem rest_cons {e : Expr} {es : List Expr} {w v : Value} {k1 k2 : Nat} (he : EvalOk mv K mes k1 d ρ σ e w σ₁)
    (hes : SeqOk mv K mes .beginLoop k2 (d + 1) ρ σ₁ es v σ₂) (hne : es ≠ []) :
    SeqOk mv K mes .beginRest (k1 + k2) (d + 1) ρ σ (e :: es) v σ₂ := by
  intro W s N q hr hw hc hs
  cases hc with
  | cons hp hc hl h =>
    refine rest_push (k2 := k2) he (hr.mono (Nat.le_refl _) (by split <;> omega)) hw hs hp hc rfl (h.ne hne) (by omega) fun W' s' ha h1 h0 hw' => ?_
    exact hes W' s' N q (hr.adv ha (by omega)) hw' (by rw [h1]; exact h.later ha.later) (by rw [h0]; exact hs.later ha.later)

theorem Spec.IsSeq.chain {x : Int} {es : List Expr} (h : IsSeq s W mes N x es) :
    ∃ as, Chain s x as c_nil ∧ as.length = es.length ∧ ∀ (s' : St) (W' : Ghost) (y r : Int) (bs : List Int), Later W s W' s' →
      Chain s' r bs y → cars s' bs = cars s as → (∀ b ∈ bs, ¬ W'.chg b) → CodeSeg s' W' mes N y r es := by
  have h' := h.seg
  clear h
  induction h' with
  | nil =>
    refine ⟨[], .nil _, rfl, fun s' W' y r bs hl hc he _ => ?_⟩
    cases hc with
    | nil => exact .nil
    | cons => simp at he
  | @cons p e es hp he hl h ih =>
    obtain ⟨as, h1, h2, h3⟩ := ih
    refine ⟨p :: as, .cons hp.ne hp.valid hp.tag h1, by simp [h2], fun s' W' y r bs hlat hc heq hch => ?_⟩
    cases hc with
    | nil => simp at heq
    | @cons _ _ bs hne hv ht hc =>
      simp only [List.map_cons, List.cons.injEq] at heq
      refine .cons ⟨hne, hv, ht, hch _ (by simp)⟩ (by rw [heq.1]; exact he.later hlat) ?_ (h3 s' W' y _ bs hlat hc heq.2 fun b hb => hch b (by simp [hb]))
      rw [heq.1, hlat.keep he.valid he.fixed]; exact hl

/-- The expressions of an inner `begin`, copied in front of the rest. -/
theorem splice_ok {x y : Int} {es : List Expr} (hw : World s W mes σ) (hs : IsSeq s W mes N x es) (hr : Room s es.length) :
    ∃ r s', (∀ fuel, es.length < fuel → append2 s fuel x y = ok (r, s')) ∧ Ext s s' ∧ s'.free = s.free + es.length ∧
      CodeSeg s' W mes N y r es := by
  obtain ⟨as, h1, h2, h3⟩ := hs.chain
  rw [← h2] at hr ⊢
  obtain ⟨r, s', bs, g1, g2, g3, g4, g5, g6⟩ := append2_copy (y := y) h1 hr
  refine ⟨r, s', g1, g2, g3, h3 s' W y r bs (g2.grow.later W) g4 g5 fun b hb hc => ?_⟩
  have := g6 b hb
  have := hw.below b hc
  omega

/-- At the start of the loop with an expression that is not `(begin …)`. -/
theorem Spec.IsCode.not_begin {c : Int} {e : Expr} (h : IsCode s W mes N c e) (he : ∀ es, e ≠ .begin es) :
    ¬ ((s.cell c).tag = .pair ∧ (s.cell c).car = c_symbol_begin) := by
  rintro ⟨h1, h2⟩
  cases h with
  | const _ ht => exact ht.1 h1
  | quote _ hh => rw [hh] at h2; exact absurd h2 (by decide)
  | var hx => rw [hx.tag] at h1; cases h1
  | global hx => rw [hx.tag] at h1; cases h1
  | ite _ hh => rw [hh] at h2; exact absurd h2 (by decide)
  | ifOnly _ hh => rw [hh] at h2; exact absurd h2 (by decide)
  | lam _ hh => rw [hh] at h2; exact absurd h2 (by decide)
  | app _ hh => exact hh (by rw [h2]; unfold SpecialForm; simp)
  | begin => exact he _ rfl
  | set _ hh => rw [hh] at h2; exact absurd h2 (by decide)

theorem Spec.IsCode.begin_inv {c : Int} {es : List Expr} (h : IsCode s W mes N c (.begin es)) :
    FixedPair s W.chg c ∧ (s.cell c).car = c_symbol_begin ∧ IsSeq s W mes N (s.cell c).cdr es ∧ es ≠ [] := by
  cases h with
  | begin h1 h2 h3 h4 => exact ⟨h1, h2, h3, h4⟩

theorem loop_start {k d : Nat} {e : Expr} {es : List Expr} {q : Int} (hr : Ready s k d) (hc : CodeSeg s W mes N q s.r1 (e :: es))
    (he : ∀ es', e ≠ .begin es') (x : Int) (gp mp : Option Bool) :
    Walk mv K ⟨.beginLoop, s, x, gp, mp⟩ ⟨.beginRest, s, x, gp, mp⟩ := by
  cases hc with
  | cons hp hc hl hcs =>
    refine Walk.trans (v' := ⟨.beginSplice, s, x, gp, mp⟩) (.one (fun _ => moves_beginLoop _ _ _ fun _ => hr.gcCheck) fun fuel => ?_) (.one (fun _ => moves_beginSplice _ _ _ hp.tag (as := []) fun h => absurd h (hc.not_begin he)) fun fuel => ?_)
    · simp only [step, if_neg hp.ne, hr.gcCheck, ok_bind, St.rd_ok hp.valid, hp.tag, ↓reduceIte, St.rd_ok hc.valid, if_neg hl]
    · simp only [step, ok_bind, St.rd_ok hp.valid, hp.tag, ↓reduceIte, St.rd_ok hc.valid, if_neg (hc.not_begin he)]

theorem loop_plain {e : Expr} {es : List Expr} {v : Value} (h : SeqOk mv K mes .beginRest k d ρ σ (e :: es) v σ')
    (he : ∀ es', e ≠ .begin es') : SeqOk mv K mes .beginLoop k d ρ σ (e :: es) v σ' := by
  intro W s N q hr hw hc hs
  exact (h W s N q hr hw hc hs).adv (.refl W s) rfl (fun x gp mp => ⟨x, loop_start hr hc he x gp mp⟩) (by omega)

/-- The expressions of an inner `begin` are copied in front of the rest. -/
theorem splice_start {k d : Nat} {es' es : List Expr} {q : Int} (hr : Ready s k d) (hk : es'.length ≤ k) (hw : World s W mes σ)
    (hc : CodeSeg s W mes N q s.r1 (.begin es' :: es)) :
    ∃ s', Adv W s W s' es'.length ∧ s'.r0 = s.r0 ∧ World s' W mes σ ∧ CodeSeg s' W mes N (s.cell s.r1).cdr s'.r1 es' ∧
      ∀ x gp mp, Walk mv K ⟨.beginLoop, s, x, gp, mp⟩ ⟨.beginRest, s', x, gp, mp⟩ := by
  cases hc with
  | cons hp hc hl hcs =>
    obtain ⟨b1, b2, b3, b4⟩ := hc.begin_inv
    obtain ⟨r, s1, g1, g2, g3, g4⟩ := splice_ok (y := (s.cell s.r1).cdr) hw b3 ((hr.mono (k' := es'.length) (by omega) (Nat.le_refl _)).room)
    have ha := (g2.adv (j := es'.length) (by omega) W).trans ((alike_r1 s1 r).adv W)
    refine ⟨{ s1 with r1 := r }, ha, g2.r0, (alike_r1 s1 r).world (g2.world hw), g4.later ((alike_r1 s1 r).adv W).later, fun x gp mp =>
      Walk.trans (v' := ⟨.beginSplice, s, x, gp, mp⟩) (.one (fun _ => moves_beginLoop _ _ _ fun _ => hr.gcCheck) fun fuel => ?_) (.fuel (fun _ => by
        obtain ⟨as, i1, i2, _⟩ := b3.chain
        exact moves_beginSplice _ _ _ hp.tag fun _ => ⟨i1, by rw [i2]; exact (hr.mono (k' := es'.length) (by omega) (Nat.le_refl _)).room⟩) (es'.length + 1) fun fuel hf => ?_)⟩
    · simp only [step, if_neg hp.ne, hr.gcCheck, ok_bind, St.rd_ok hp.valid, hp.tag, ↓reduceIte, St.rd_ok hc.valid, if_neg hl]
    · simp only [step, ok_bind, St.rd_ok hp.valid, hp.tag, ↓reduceIte, St.rd_ok hc.valid, b1.tag, b2, and_self]
      rw [g1 fuel (by omega)]
      rfl

/-- An inner `begin` is spliced. -/
theorem loop_splice {es' es : List Expr} {w v : Value} {q : Int} {k1 k2 n d' : Nat} (h : SeqOk mv K mes .beginRest k1 d ρ σ es' w σ₁)
    (hr : Ready s n d') (hd : (if (s.cell s.r1).cdr = c_nil then d else d + 1) ≤ d') (hw : World s W mes σ)
    (hc : CodeSeg s W mes N q s.r1 (.begin es' :: es)) (hs : IsScope s W N s.r0 ρ) (hn : es'.length + k1 + k2 ≤ n)
    (hk : ∀ W' s', Adv W s W' s' es'.length → s'.r0 = s.r0 → Through mv K mes .beginRest k1 σ₁ w (s.cell s.r1).cdr W' s' →
      Through mv K mes .beginRest (k1 + k2) σ' v q W' s') : Through mv K mes .beginLoop n σ' v q W s := by
  obtain ⟨s1, g1, g2, g3, g4, g5⟩ := splice_start (K := K) hr (by omega) hw hc
  exact (hk W s1 g1 g2 (h W s1 N (s.cell s.r1).cdr ((hr.adv (k' := k1) g1 (by omega)).mono (Nat.le_refl _) hd) g3 g4
    (hs.at g1.later g2))).adv g1 g2 (fun x gp mp => ⟨x, g5 x gp mp⟩) (by omega)

theorem loop_one {e : Expr} {v : Value} (he : EvalOk mv K mes k d ρ σ e v σ')
    (hb : ∀ es', e = .begin es' → ∃ k', SeqOk mv K mes .beginRest k' d ρ σ es' v σ') : ∃ k', SeqOk mv K mes .beginLoop k' d ρ σ [e] v σ' := by
  by_cases hbe : ∃ es', e = .begin es'
  · obtain ⟨es', rfl⟩ := hbe
    obtain ⟨k1, h1⟩ := hb es' rfl
    refine ⟨es'.length + k1, fun W s N q hr hw hc hs => ?_⟩
    have hq : (s.cell s.r1).cdr = q := by
      cases hc with
      | cons _ _ _ h =>
        generalize (s.cell s.r1).cdr = p at h
        cases h; rfl
    refine loop_splice (k2 := 0) h1 hr (by rw [hq]; exact Nat.le_refl _) hw hc hs (by omega) fun W' s' _ _ h => ?_
    rw [hq] at h
    exact h
  · exact ⟨k, loop_plain (rest_one he) fun es' h => hbe ⟨es', h⟩⟩

theorem loop_cons {e : Expr} {es : List Expr} {w v : Value} {k1 k2 : Nat} (he : EvalOk mv K mes k1 d ρ σ e w σ₁)
    (hb : ∀ es', e = .begin es' → ∃ k', SeqOk mv K mes .beginRest k' d ρ σ es' w σ₁)
    (hes : SeqOk mv K mes .beginLoop k2 (d + 1) ρ σ₁ es v σ₂) (hne : es ≠ []) :
    ∃ k', SeqOk mv K mes .beginLoop k' (d + 1) ρ σ (e :: es) v σ₂ := by
  by_cases hbe : ∃ es', e = .begin es'
  · obtain ⟨es', rfl⟩ := hbe
    obtain ⟨k1, h1⟩ := hb es' rfl
    refine ⟨es'.length + k1 + k2, fun W s N q hr hw hc hs => ?_⟩
    have hcs : CodeSeg s W mes N q (s.cell s.r1).cdr es := by cases hc with | cons _ _ _ h => exact h
    have hq := hcs.ne hne
    refine loop_splice (k2 := k2) h1 hr (by rw [if_neg hq]; split <;> omega) hw hc hs (by omega) fun W' s' ha h0 h => ?_
    unfold Through at h
    rw [if_neg hq] at h
    refine h.through (k' := k2) (by omega) fun W2 s2 a2 i1 i0 hw2 => ?_
    have ha2 := ha.trans a2
    exact hes W2 s2 N q (hr.adv ha2 (by omega)) hw2 (by rw [i1]; exact hcs.later ha2.later) (by rw [i0, h0]; exact hs.later ha2.later)
  · exact ⟨k1 + k2, loop_plain (rest_cons he hes hne) fun es' h => hbe ⟨es', h⟩⟩

/-- `(begin es)`: the symbol `begin` is evaluated like the first expression of the sequence. -/
theorem begin_start {es : List Expr} (hr : Ready s k (d + 1)) (hw : World s W mes σ) (hc : IsCode s W mes N s.r1 (.begin es)) :
    ∃ s', Adv W s W s' 0 ∧ s'.r0 = s.r0 ∧ World s' W mes σ ∧ CodeSeg s' W mes N c_nil s'.r1 es ∧
      ∀ x gp mp, ∃ x', Walk mv K ⟨.eval, s, x, gp, mp⟩ ⟨.beginLoop, s', x', gp, mp⟩ := by
  obtain ⟨hp, hh, hseq, hne⟩ := hc.begin_inv
  have hb := World.fixed_cell hw (a := c_symbol_begin) (by decide) (by decide)
  have hbt : (s.cell c_symbol_begin).tag = .symbol := hb.2
  have hb5 := hw.begin
  have hg1 := grow_pushed s c_symbol_begin s.r1 s.r0 c_vm_begin_eval
  have hr1 := hr.pushed c_symbol_begin s.r1 s.r0 c_vm_begin_eval
  have hpop : Popped (s.pushed c_symbol_begin s.r1 s.r0 c_vm_begin_eval)
    { (s.pushed c_symbol_begin s.r1 s.r0 c_vm_begin_eval).popped with r1 := c_symbol_begin } := popped_popped _
  have hback := hpop.back
  have hg2 : Grow s { (s.pushed c_symbol_begin s.r1 s.r0 c_vm_begin_eval).popped with r1 := c_symbol_begin } :=
    ⟨Int.le_refl _, fun _ _ => rfl⟩
  have hf2 : ({ (s.pushed c_symbol_begin s.r1 s.r0 c_vm_begin_eval).popped with r1 := c_symbol_begin } : St).free = s.free := rfl
  have hret : ∀ x gp mp, Walk mv K ⟨.eval, s.pushed c_symbol_begin s.r1 s.r0 c_vm_begin_eval, x, gp, mp⟩
      ⟨.dispatch, { (s.pushed c_symbol_begin s.r1 s.r0 c_vm_begin_eval).popped with r1 := c_symbol_begin }, x, gp, mp⟩ := by
    intro x gp mp
    refine Walk.trans (v' := ⟨.vmReturn, s.pushed c_symbol_begin s.r1 s.r0 c_vm_begin_eval, x, gp, mp⟩) (.one (fun _ => moves_reserved _ _ _ hbt (.inr (.inr (.inl rfl)))) fun fuel => ?_) (.ret hr1)
    have e1 : (s.pushed c_symbol_begin s.r1 s.r0 c_vm_begin_eval).rd c_symbol_begin = ok (s.cell c_symbol_begin) := St.rd_ok hb.1
    have e2 : (s.pushed c_symbol_begin s.r1 s.r0 c_vm_begin_eval).r1 = c_symbol_begin := rfl
    simp only [step, e2, e1, ok_bind, hbt]
    rfl
  generalize ({ (s.pushed c_symbol_begin s.r1 s.r0 c_vm_begin_eval).popped with r1 := c_symbol_begin } : St) = s2 at *
  have ha : Adv W s W s2 0 := ⟨hback.keeps, hg2.later W, by omega⟩
  have ha3 := ha.trans ((alike_r1 s2 (s.cell s.r1).cdr).adv W)
  have hw2 := hw.grow hg2 hback.keeps.consts.m0
  refine ⟨{ s2 with r1 := (s.cell s.r1).cdr }, ha3.mono (by omega), hback.r0, (alike_r1 s2 _).world hw2, hseq.seg.later ha3.later,
    fun x gp mp => ⟨s2.r1, ?_⟩⟩
  have hcdr : (s.cell s.r1).cdr ≠ c_nil := hseq.seg.ne hne
  refine Walk.trans (v' := ⟨.begin, s, x, gp, mp⟩) (.one (fun _ => moves_evalBegin _ _ _ hp.tag hh) fun fuel => ?_) <|
    Walk.trans (v' := ⟨.beginLoop, s, c_unspecified, gp, mp⟩) (.one (fun _ => moves_begin ..) fun fuel => rfl) <|
    Walk.trans (v' := ⟨.beginSplice, s, c_unspecified, gp, mp⟩) (.one (fun _ => moves_beginLoop _ _ _ fun _ => hr.gcCheck) fun fuel => ?_) <|
    Walk.trans (v' := ⟨.beginRest, s, c_unspecified, gp, mp⟩) (.one (fun _ => moves_beginSplice _ _ _ hp.tag (as := []) fun h => absurd (hbt.symm.trans (hh ▸ h.1)) (by decide)) fun fuel => ?_) <|
    Walk.trans (v' := ⟨.eval, s.pushed c_symbol_begin s.r1 s.r0 c_vm_begin_eval, c_unspecified, gp, mp⟩) (.one (fun _ => moves_beginRest _ _ _ hp.tag) fun fuel => ?_) <|
    Walk.trans (hret _ gp mp) <| Walk.trans (.dispatch (l := .beginEval) (by rw [hback.r3]; decide)) (.one (fun _ => moves_beginEval _ _ _ (by rw [hback.r2]; exact (hp.later ha.later).tag)) fun fuel => ?_)
  · simp only [step, St.rd_ok hp.valid, ok_bind, hp.tag, hh]
    rfl
  · simp only [step, if_neg hp.ne, hr.gcCheck, ok_bind, St.rd_ok hp.valid, hp.tag, ↓reduceIte, hh, St.rd_ok hb.1, hb5]
    rfl
  · simp only [step, ok_bind, St.rd_ok hp.valid, hp.tag, ↓reduceIte, hh, St.rd_ok hb.1, hbt]
    rfl
  · simp only [step, ok_bind, St.rd_ok hp.valid, hh, if_neg hcdr, hr.pushCc]
  · simp only [step, hback.r2, St.cdr_ok (hp.later ha.later).valid, ok_bind, hp.cell_eq ha.later]

theorem evalOk_begin {es : List Expr} {v : Value} (h : SeqOk mv K mes .beginLoop k (d + 1) ρ σ es v σ') :
    EvalOk mv K mes k (d + 1) ρ σ (.begin es) v σ' := by
  intro W s N hr hw hc hs
  obtain ⟨s1, g1, g2, g3, g4, g5⟩ := begin_start (K := K) hr hw hc
  have key := h W s1 N c_nil (hr.adv (k' := k) g1 (by omega)) g3 g4 (hs.at g1.later g2)
  unfold Through at key
  rw [if_pos rfl] at key
  exact key.adv g1 g5 (by omega)

end Mes
