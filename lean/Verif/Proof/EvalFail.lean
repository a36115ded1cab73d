import Verif.Proof.EvalDefine
import Verif.Proof.EvalPrim
import Verif.Spec.Failure
/-
Errors: where the semantics says that an expression raises an error, the machine raises it.
-/
namespace Mes
open Res Spec Gc

variable {mv : Prop} {K : Calls} {s s' s'' s1 : St} {W W' W1 : Ghost} {mes : Bool} {σ σ' σ₀ σ₁ σ₂ σ₃ : Store} {N : Idents} {ρ : Locals}
  {d k : Nat} {δ : Int → Int → List Value → Value → Prop} {ε : Int → Int → List Value → Key → Prop} {T : Int → Prop} {key : Key}

/-- From the label `l` the machine raises the error. -/
def FailsAt (mv : Prop) (K : Calls) (l : Label) (s : St) (key : Key) : Prop := ∀ x gp mp, Falls mv K ⟨l, s, x, gp, mp⟩ key

theorem FailsAt.adv {l l' : Label} (h : FailsAt mv K l' s' key) (hs : ∀ x gp mp, ∃ x', Walk mv K ⟨l, s, x, gp, mp⟩ ⟨l', s', x', gp, mp⟩) :
    FailsAt mv K l s key := fun x gp mp => by
  obtain ⟨x', h'⟩ := hs x gp mp
  exact h'.falls (h x' gp mp)

theorem FailsAt.steps {l l' : Label} (h : FailsAt mv K l' s' key) (hs : ∀ x gp mp, Walk mv K ⟨l, s, x, gp, mp⟩ ⟨l', s', x, gp, mp⟩) :
    FailsAt mv K l s key := h.adv fun x gp mp => ⟨x, hs x gp mp⟩

theorem FailsAt.step {l : Label} (hm : ∀ x gp mp, mv → Moves K ⟨l, s, x, gp, mp⟩) (F : Nat)
    (h : ∀ x gp mp fuel, F ≤ fuel → step K fuel ⟨l, s, x, gp, mp⟩ = err key) : FailsAt mv K l s key :=
  fun x gp mp => .step (hm x gp mp) F (h x gp mp)

theorem Outcome.fails (mv : Prop) (K : Calls) (mes : Bool) (key : Key) : Outcome mv K mes fun l _ _ s => FailsAt mv K l s key :=
  ⟨fun h _ hs _ => h.adv hs, fun h _ hs hc _ hk x gp mp => by
    obtain ⟨x1, g⟩ := hs x gp mp
    obtain ⟨W2, s2, x2, h1, h2, h3, h4, h5, h6⟩ := h x1 gp mp
    have hb := h2.back
    exact (g.trans (h1.trans (.dispatch (by rw [hb.r3]; exact hc)))).falls
      (hk W2 s2 ⟨hb.keeps, (grow_pushed ..).later _ |>.trans h3, h5⟩ hb.r0 hb.r2 h4 h6 x2 gp mp)⟩

/-- What the machine does in memories that have the strings `T`. -/
def EvalFails (mv : Prop) (K : Calls) (mes : Bool) (T : Int → Prop) (k d : Nat) (ρ : Locals) (σ : Store) (e : Expr) (key : Key) : Prop :=
  ∀ W s N, Ready s k d → World s W mes σ → Strings s W T → IsCode s W mes N s.r1 e → IsScope s W N s.r0 ρ → FailsAt mv K .eval s key

def ArgsFail (mv : Prop) (K : Calls) (mes : Bool) (T : Int → Prop) (k d : Nat) (ρ : Locals) (σ : Store) (es : List Expr) (key : Key) : Prop :=
  ∀ W s N, Ready s k d → World s W mes σ → Strings s W T → IsSeq s W mes N s.r1 es → IsScope s W N s.r0 ρ → FailsAt mv K .evlis s key

def SeqFails (mv : Prop) (K : Calls) (mes : Bool) (T : Int → Prop) (l : Label) (k d : Nat) (ρ : Locals) (σ : Store) (es : List Expr) (key : Key) : Prop :=
  ∀ W s N q, Ready s k (if q = c_nil then d else d + 1) → World s W mes σ → Strings s W T → CodeSeg s W mes N q s.r1 es →
    IsScope s W N s.r0 ρ → FailsAt mv K l s key

def CallFails (mv : Prop) (K : Calls) (mes : Bool) (T : Int → Prop) (k d : Nat) (σ : Store) (fv : Value) (vs : List Value) (key : Key) : Prop :=
  ∀ W s, Ready s k d → World s W mes σ → Strings s W T → FixedPair s W.chg s.r1 → IsVal s W mes (s.cell s.r1).car fv →
    IsVals s W mes (s.cell s.r1).cdr vs → FailsAt mv K .apply s key

/-- The same for a lambda expression as operator. -/
def LamFails (mv : Prop) (K : Calls) (mes : Bool) (T : Int → Prop) (k d : Nat) (ρ : Locals) (σ : Store) (f : Expr) (vs : List Value) (key : Key) : Prop :=
  ∀ W s N, Ready s k d → World s W mes σ → Strings s W T → IsScope s W N s.r0 ρ → FixedPair s W.chg s.r1 →
    IsCode s W mes N (s.cell s.r1).car f → IsVals s W mes (s.cell s.r1).cdr vs → FailsAt mv K .apply s key

theorem Spec.Strings.later (h : Strings s W T) (hl : Later W s W' s') : Strings s' W' T := fun a ha => by
  obtain ⟨h1, h2, h3⟩ := h a ha
  exact ⟨hl.valid h1, by rw [hl.keep h1 h3]; exact h2, hl.fixed h1 h3⟩

/-! ### Variables, conditionals, assignments -/

theorem fails_var {x : Int} (hl : σ.find ρ x = none) : EvalFails mv K mes T 1 d ρ σ (.var x) .unboundVariable := by
  intro W s N hr hw _ hc hs
  generalize hx : s.r1 = y at hc
  cases hc with
  | var hn hN hres =>
    obtain ⟨F, s1, e1, e2, e3⟩ := moduleVariable_ok hw hs.whole hn hN hr.room
    rw [hl] at e3
    refine .step (fun x gp mp _ => moves_var x gp mp hw hs.whole (by rw [hx]; exact hn) (by rw [hx]; exact hN) hr.room) F fun x gp mp fuel hf => ?_
    simp only [step, hx, St.rd_ok hn.text.valid, ok_bind, hn.tag]
    rw [if_neg (fun h => hres (h.imp id (Or.imp id (Or.imp id Or.inl)))), moduleRef, e3 fuel hf]
    rfl
  | global hg =>
    obtain ⟨m, h1, -⟩ := global_find hw hg hs
    rw [hl] at h1; cases h1

theorem fails_test {e0 : Expr} (h : EvalFails mv K mes T k d ρ σ e0 key) (hr : Ready s k (d + 1)) (hw : World s W mes σ) (ht : Strings s W T)
    (hs : IsScope s W N s.r0 ρ) (hp : FixedPair s W.chg s.r1) (hh : (s.cell s.r1).car = c_symbol_if)
    (h1 : FixedPair s W.chg (s.cell s.r1).cdr) (i0 : IsCode s W mes N (s.cell (s.cell s.r1).cdr).car e0) : FailsAt mv K .eval s key := by
  have a1 := (alike_r1 s (s.cell s.r1).cdr).adv W
  have hp1 : Grow s (({ s with r1 := (s.cell s.r1).cdr } : St).pushed (s.cell (s.cell s.r1).cdr).car (s.cell s.r1).cdr s.r0 c_vm_if_expr) :=
    (alike_r1 s _).grow.trans (grow_pushed ..)
  have hl1 := hp1.later W
  exact (h W _ N ((hr.adv (k' := k) a1 (by omega)).pushed ..) (hw.grow hp1 rfl) (ht.later hl1) (i0.later hl1) (hs.later hl1)).steps
    fun x gp mp => if_start hr hp hh h1 x gp mp

theorem fails_branch {e0 e1 e2 e : Expr} {w : Value} {k1 k2 : Nat} (hc : EvalOk mv K mes k1 d ρ σ e0 w σ₁)
    (he : EvalFails mv K mes T k2 (d + 1) ρ σ₁ e key) (h : w ≠ .obj c_f ∧ e = e1 ∨ w = .obj c_f ∧ e = e2) :
    EvalFails mv K mes T (k1 + k2) (d + 1) ρ σ (.ite e0 e1 e2) key := by
  intro W s N hr hw hT hco hs
  cases hco with
  | ite hp hh h1 i0 h2 i1 h3 i2 =>
    refine if_call (.fails ..) hc hr hw hs hp hh h1 i0 fun W' s' hlat hr' hr2 hs' hw' hg => ?_
    have hT' := hT.later hlat
    have h1' := h1.later hlat
    have h2' := h2.later hlat
    have h3' := h3.later hlat
    have c1 := h1.cell_eq hlat
    have c2 := h2.cell_eq hlat
    have c3 := h3.cell_eq hlat
    have i1' := i1.later hlat
    have i2' := i2.later hlat
    rw [← hr2] at h1' c1
    rw [← hr2, ← c1] at h2' h3' c2 c3 i1' i2'
    rw [← c2] at h3' c3 i1' i2'
    rw [← c3] at i2'
    rcases h with ⟨hne, rfl⟩ | ⟨heq, rfl⟩
    · have hnf : s'.r1 ≠ c_f := fun h => hne ((Spec.IsVal.false_iff hg hw').1 h)
      have a2 := (alike_r1 s' (s'.cell (s'.cell s'.r2).cdr).car).adv W'
      refine (he W' _ N (hr'.adv a2 (by omega)) ((alike_r1 s' _).world hw') (hT'.later a2.later) (i1'.later a2.later) (hs'.later a2.later)).steps
        fun x gp mp => .one (fun _ => moves_ifExpr _ _ _ h1'.tag h2'.tag fun h => absurd h hnf) fun fuel => ?_
      simp only [step, St.cdr_ok h1'.valid, ok_bind, St.rd_ok h2'.valid]
      rw [if_pos hnf]
    · have hf : s'.r1 = c_f := (Spec.IsVal.false_iff hg hw').2 heq
      have a2 := (alike_r1 s' (s'.cell (s'.cell (s'.cell s'.r2).cdr).cdr).car).adv W'
      refine (he W' _ N (hr'.adv a2 (by omega)) ((alike_r1 s' _).world hw') (hT'.later a2.later) (i2'.later a2.later) (hs'.later a2.later)).steps
        fun x gp mp => .one (fun _ => moves_ifExpr _ _ _ h1'.tag h2'.tag fun _ _ => h3'.tag) fun fuel => ?_
      simp only [step, St.cdr_ok h1'.valid, ok_bind, St.rd_ok h2'.valid]
      rw [if_neg (fun h => h hf), if_pos h3'.ne, St.car_ok h3'.valid, ok_bind]

theorem fails_then {e0 e1 : Expr} {w : Value} {k1 k2 : Nat} (hc : EvalOk mv K mes k1 d ρ σ e0 w σ₁)
    (he : EvalFails mv K mes T k2 (d + 1) ρ σ₁ e1 key) (hne : w ≠ .obj c_f) :
    EvalFails mv K mes T (k1 + k2) (d + 1) ρ σ (.ifOnly e0 e1) key := by
  intro W s N hr hw hT hco hs
  cases hco with
  | ifOnly hp hh h1 i0 h2 i1 h3 =>
    refine if_call (.fails ..) hc hr hw hs hp hh h1 i0 fun W' s' hlat hr' hr2 hs' hw' hg => ?_
    have hT' := hT.later hlat
    have h1' := h1.later hlat
    have h2' := h2.later hlat
    have c1 := h1.cell_eq hlat
    have c2 := h2.cell_eq hlat
    have i1' := i1.later hlat
    rw [← hr2] at h1' c1
    rw [← hr2, ← c1] at h2' c2 i1'
    rw [← c2] at i1'
    have hnf : s'.r1 ≠ c_f := fun h => hne ((Spec.IsVal.false_iff hg hw').1 h)
    have a2 := (alike_r1 s' (s'.cell (s'.cell s'.r2).cdr).car).adv W'
    refine (he W' _ N (hr'.adv a2 (by omega)) ((alike_r1 s' _).world hw') (hT'.later a2.later) (i1'.later a2.later) (hs'.later a2.later)).steps
      fun x gp mp => .one (fun _ => moves_ifExpr _ _ _ h1'.tag h2'.tag fun h => absurd h hnf) fun fuel => ?_
    simp only [step, St.cdr_ok h1'.valid, ok_bind, St.rd_ok h2'.valid]
    rw [if_pos hnf]

theorem fails_setValue {x : Int} {e : Expr} (he : EvalFails mv K mes T k d ρ σ e key) : EvalFails mv K mes T k (d + 1) ρ σ (.set x e) key := by
  intro W s N hr hw hT hco hs
  cases hco with
  | set hp hh h1 hx h2 hc =>
    have hg1 := grow_pushed s (s.cell (s.cell (s.cell s.r1).cdr).cdr).car s.r1 s.r0 c_vm_eval_set_x
    have hl1 := hg1.later W
    exact (he W _ N (hr.pushed ..) (hw.grow hg1 rfl) (hT.later hl1) (hc.later hl1) (hs.later hl1)).steps fun y gp mp => set_start hr hp hh h1 h2 y gp mp

theorem fails_set {x : Int} {e : Expr} {v : Value} (he : EvalOk mv K mes k d ρ σ e v σ') (hl : σ'.find ρ x = none) :
    EvalFails mv K mes T (k + 1) (d + 1) ρ σ (.set x e) .notAPair := by
  intro W s N hr hw hT hco hs
  refine set_call (.fails ..) he hr hw hco hs fun W' s' hr' hw' hs' hp' h1' hx hg => ?_
  generalize hy : (s'.cell (s'.cell s'.r2).cdr).car = y at hx
  cases hx with
  | global hi =>
    obtain ⟨m, h1, -⟩ := global_find hw' hi hs'
    rw [hl] at h1; cases h1
  | name hi' hN =>
  obtain ⟨F, s1, e1, e2, e3⟩ := moduleVariable_ok hw' hs'.whole hi' hN hr'.room
  rw [hl] at e3
  have hf := World.false_ (e1.world hw')
  refine .step (fun y gp mp _ => moves_evalSet y gp mp hw' hs'.whole hp'.tag h1'.tag (by rw [hy]; exact hi') (by rw [hy]; exact hN) hr'.room) F fun y gp mp fuel hf' => ?_
  simp only [step, St.cdr_ok hp'.valid, ok_bind, St.car_ok h1'.valid, setEnvX, hy, St.rd_ok hi'.text.valid, hi'.tag]
  rw [e3 fuel hf']
  simp only [ok_bind, Option.map_none, Option.getD_none, assertDefined, if_neg (show c_f ≠ c_undefined by decide), St.rd_ok hf.1, hf.2,
    reduceCtorEq, if_false, ne_eq, not_false_eq_true, if_true]
  rfl

/-! ### Operands -/

theorem argsFail_head {e : Expr} {es : List Expr} (he : EvalFails mv K mes T k d ρ σ e key) : ArgsFail mv K mes T k (d + 1) ρ σ (e :: es) key := by
  intro W s N hr hw hT hc hs
  obtain ⟨hp, hc, hcs⟩ := hc.cons_inv
  have hg1 := grow_pushed s (s.cell s.r1).car s.r1 s.r0 c_vm_evlis2
  have hl1 := hg1.later W
  exact (he W _ N (hr.pushed ..) (hw.grow hg1 rfl) (hT.later hl1) (hc.later hl1) (hs.later hl1)).steps fun y gp mp => evlis_start hr hp y gp mp

theorem argsFail_tail {e : Expr} {es : List Expr} {v : Value} {k1 k2 : Nat} (he : EvalOk mv K mes k1 d ρ σ e v σ₁)
    (hes : ArgsFail mv K mes T k2 d ρ σ₁ es key) : ArgsFail mv K mes T (k1 + k2) (d + 1) ρ σ (e :: es) key := by
  intro W s N hr hw hT hc hs
  obtain ⟨hp, hc, hcs⟩ := hc.cons_inv
  have hg1 := grow_pushed s (s.cell s.r1).car s.r1 s.r0 c_vm_evlis2
  have hl1 := hg1.later W
  refine (Outcome.fails mv K mes key).call (he W _ N ((hr.mono (k' := k1) (by omega) (Nat.le_refl _)).pushed ..) (hw.grow hg1 rfl) (hc.later hl1) (hs.later hl1))
    (.refl W s) (fun y gp mp => ⟨y, evlis_start hr hp y gp mp⟩) (l'' := .evlis2) (by decide) (k' := k2) (n := k1 + k2) (by omega) ?_
  intro W1 s1 ha1 hr01 hr21 hw1 hv1
  have hr1 := hr.adv (k' := k2) ha1 (by omega)
  have hp1 := hp.later ha1.later
  have cp := hp.cell_eq ha1.later
  have hg2 := grow_pushed s1 (s.cell s.r1).cdr s1.r1 s1.r0 c_vm_evlis3
  have hl2 := hg2.later W1
  refine (hes W1 _ N (hr1.pushed ..) (hw1.grow hg2 rfl) ((hT.later ha1.later).later hl2) ((hcs.later ha1.later).later hl2)
    ((hs.at ha1.later hr01).later hl2)).steps fun y gp mp => .one (fun _ => moves_evlis2 _ _ _ (by rw [hr21]; exact hp1.tag)) fun fuel => ?_
  simp only [step, hr21, St.cdr_ok hp1.valid, ok_bind, cp, hr1.pushCc]

/-! ### Sequences -/

theorem SeqFails.mono {l : Label} {k' : Nat} {es : List Expr} (h : SeqFails mv K mes T l k d ρ σ es key) (hk : k ≤ k') :
    SeqFails mv K mes T l k' d ρ σ es key := fun W s N q hr => h W s N q (hr.mono hk (Nat.le_refl _))

/-- The first expression of a sequence fails. -/
theorem rest_head {e : Expr} {es : List Expr} (he : EvalFails mv K mes T k d ρ σ e key) {W : Ghost} {s : St} {q : Int} {d' : Nat}
    (hr : Ready s k d') (hd : d ≤ d') (hd1 : (s.cell s.r1).cdr ≠ c_nil → d + 1 ≤ d') (hw : World s W mes σ) (hT : Strings s W T)
    (hc : CodeSeg s W mes N q s.r1 (e :: es)) (hs : IsScope s W N s.r0 ρ) : FailsAt mv K .beginRest s key := by
  cases hc with
  | cons hp hc hl h =>
    by_cases hx : (s.cell s.r1).cdr = c_nil
    · have a1 := (alike_r1 s (s.cell s.r1).car).adv W
      exact (he W _ N ((hr.mono (Nat.le_refl _) hd).adv a1 (by omega)) ((alike_r1 s _).world hw) (hT.later a1.later) (hc.later a1.later)
        (hs.later a1.later)).steps fun x gp mp => rest_last hp hx x gp mp
    · have hr' := hr.mono (Nat.le_refl _) (hd1 hx)
      have hg1 := grow_pushed s (s.cell s.r1).car s.r1 s.r0 c_vm_begin_eval
      have hl1 := hg1.later W
      exact (he W _ N (hr'.pushed ..) (hw.grow hg1 rfl) (hT.later hl1) (hc.later hl1) (hs.later hl1)).steps
        fun x gp mp => rest_start hr' hp hx x gp mp

theorem CodeSeg.last {q p : Int} {e : Expr} (h : CodeSeg s W mes N q p [e]) : (s.cell p).cdr = q := by
  cases h with
  | cons _ _ _ h =>
    generalize (s.cell p).cdr = r at h
    cases h; rfl

theorem restFails_one {e : Expr} (he : EvalFails mv K mes T k d ρ σ e key) : SeqFails mv K mes T .beginRest k d ρ σ [e] key := by
  intro W s N q hr hw hT hc hs
  refine rest_head he hr (by split <;> omega) (fun h => ?_) hw hT hc hs
  rw [hc.last] at h
  rw [if_neg h]; exact Nat.le_refl _

theorem restFails_head {e : Expr} {es : List Expr} (he : EvalFails mv K mes T k d ρ σ e key) :
    SeqFails mv K mes T .beginRest k (d + 1) ρ σ (e :: es) key := by
  intro W s N q hr hw hT hc hs
  exact rest_head he hr (by split <;> omega) (fun _ => by split <;> omega) hw hT hc hs

theorem Pass.fails {l : Label} {q : Int} (h : Pass mv K mes l k σ₁ q W s)
    (hk : ∀ W' s', Adv W s W' s' k → s'.r1 = q → s'.r0 = s.r0 → World s' W' mes σ₁ → FailsAt mv K .beginLoop s' key) : FailsAt mv K l s key := by
  intro x gp mp
  obtain ⟨W2, s2, x2, h1, h2, h3, h4, h5⟩ := h x gp mp
  exact h1.falls (hk W2 s2 h4 h2 h3 h5 x2 gp mp)

theorem restFails_tail {e : Expr} {es : List Expr} {w : Value} {k1 k2 : Nat} (he : EvalOk mv K mes k1 d ρ σ e w σ₁)
    (hes : SeqFails mv K mes T .beginLoop k2 (d + 1) ρ σ₁ es key) (hne : es ≠ []) :
    SeqFails mv K mes T .beginRest (k1 + k2) (d + 1) ρ σ (e :: es) key := by
  intro W s N q hr hw hT hc hs
  cases hc with
  | cons hp hc hl h =>
    refine (rest_pass he (hr.mono (Nat.le_refl _) (by split <;> omega)) hw hs hp hc (h.ne hne) (by omega)).fails fun W' s' ha h1 h0 hw' => ?_
    exact hes W' s' N q (hr.adv ha (by omega)) hw' (hT.later ha.later) (by rw [h1]; exact h.later ha.later) (hs.at ha.later h0)

theorem loopFails_plain {e : Expr} {es : List Expr} (h : SeqFails mv K mes T .beginRest k d ρ σ (e :: es) key)
    (he : ∀ es', e ≠ .begin es') : SeqFails mv K mes T .beginLoop k d ρ σ (e :: es) key := by
  intro W s N q hr hw hT hc hs
  exact (h W s N q hr hw hT hc hs).steps fun x gp mp => loop_start hr hc he x gp mp

/-- The expression is `(begin …)`, which fails. -/
theorem loopFails_splice {es' es : List Expr} {k1 : Nat} (h : SeqFails mv K mes T .beginRest k1 d ρ σ es' key) {W : Ghost} {s : St} {q : Int} {d' : Nat}
    (hr : Ready s (es'.length + k1) d') (hd : (if (s.cell s.r1).cdr = c_nil then d else d + 1) ≤ d') (hw : World s W mes σ) (hT : Strings s W T)
    (hc : CodeSeg s W mes N q s.r1 (.begin es' :: es)) (hs : IsScope s W N s.r0 ρ) : FailsAt mv K .beginLoop s key := by
  obtain ⟨s1, g1, g2, g3, g4, g5⟩ := splice_start (K := K) hr (by omega) hw hc
  exact (h W s1 N (s.cell s.r1).cdr ((hr.adv (k' := k1) g1 (by omega)).mono (Nat.le_refl _) hd) g3 (hT.later g1.later) g4
    (hs.at g1.later g2)).steps g5

/-- What is known about a failing expression. -/
def FailInfo (mv : Prop) (K : Calls) (mes : Bool) (T : Int → Prop) (d : Nat) (ρ : Locals) (σ : Store) (e : Expr) (key : Key) : Prop :=
  (∃ k, EvalFails mv K mes T k d ρ σ e key) ∧ ∀ es, e = .begin es → ∃ k, SeqFails mv K mes T .beginRest k d ρ σ es key

def SeqFailInfo (mv : Prop) (K : Calls) (mes : Bool) (T : Int → Prop) (d : Nat) (ρ : Locals) (σ : Store) (es : List Expr) (key : Key) : Prop :=
  (∃ k, SeqFails mv K mes T .beginRest k d ρ σ es key) ∧ (∃ k, SeqFails mv K mes T .beginLoop k d ρ σ es key) ∧ es ≠ []

theorem seqFail_one {e : Expr} (he : FailInfo mv K mes T d ρ σ e key) : SeqFailInfo mv K mes T d ρ σ [e] key := by
  obtain ⟨⟨k, he⟩, hb⟩ := he
  refine ⟨⟨k, restFails_one he⟩, ?_, by simp⟩
  by_cases hbe : ∃ es', e = .begin es'
  · obtain ⟨es', rfl⟩ := hbe
    obtain ⟨k1, h1⟩ := hb es' rfl
    refine ⟨es'.length + k1, fun W s N q hr hw hT hc hs => ?_⟩
    exact loopFails_splice h1 hr (by rw [hc.last]; exact Nat.le_refl _) hw hT hc hs
  · exact ⟨k, loopFails_plain (restFails_one he) fun es' h => hbe ⟨es', h⟩⟩

theorem seqFail_head {e : Expr} {es : List Expr} (he : FailInfo mv K mes T d ρ σ e key) : SeqFailInfo mv K mes T (d + 1) ρ σ (e :: es) key := by
  obtain ⟨⟨k, he⟩, hb⟩ := he
  refine ⟨⟨k, restFails_head he⟩, ?_, by simp⟩
  by_cases hbe : ∃ es', e = .begin es'
  · obtain ⟨es', rfl⟩ := hbe
    obtain ⟨k1, h1⟩ := hb es' rfl
    refine ⟨es'.length + k1, fun W s N q hr hw hT hc hs => ?_⟩
    exact loopFails_splice h1 hr (by split <;> split <;> omega) hw hT hc hs
  · exact ⟨k, loopFails_plain (restFails_head he) fun es' h => hbe ⟨es', h⟩⟩

theorem seqFail_tail {e : Expr} {es : List Expr} {w : Value} (he : EvalInfo mv K mes d ρ σ e w σ₁)
    (hes : SeqFailInfo mv K mes T (d + 1) ρ σ₁ es key) : SeqFailInfo mv K mes T (d + 1) ρ σ (e :: es) key := by
  obtain ⟨⟨k1, he⟩, -, hb⟩ := he
  obtain ⟨-, ⟨k2, hes⟩, hne⟩ := hes
  refine ⟨⟨_, restFails_tail he hes hne⟩, ?_, by simp⟩
  by_cases hbe : ∃ es', e = .begin es'
  · obtain ⟨es', rfl⟩ := hbe
    obtain ⟨k1, h1⟩ := hb es' rfl
    refine ⟨es'.length + k1 + k2, fun W s N q hr hw hT hc hs => ?_⟩
    have hcs : CodeSeg s W mes N q (s.cell s.r1).cdr es := by cases hc with | cons _ _ _ h => exact h
    have hq := hcs.ne hne
    obtain ⟨s1, g1, g2, g3, g4, g5⟩ := splice_start (K := K) hr (by omega) hw hc
    refine FailsAt.steps (l' := .beginRest) ?_ g5
    have key := h1 W s1 N (s.cell s.r1).cdr ((hr.adv (k' := k1 + k2) g1 (by omega)).mono (by omega) (by rw [if_neg hq]; split <;> omega)) g3 g4
      (hs.at g1.later g2)
    unfold Through at key
    rw [if_neg hq] at key
    refine key.fails fun W2 s2 a2 i1 i0 hw2 => ?_
    have ha2 := g1.trans a2
    exact hes W2 s2 N q (hr.adv ha2 (by omega)) hw2 (hT.later ha2.later) (by rw [i1]; exact hcs.later ha2.later) (hs.at ha2.later (i0.trans g2))
  · exact ⟨_, loopFails_plain (restFails_tail he hes hne) fun es' h => hbe ⟨es', h⟩⟩

theorem fails_begin {es : List Expr} (h : SeqFails mv K mes T .beginLoop k (d + 1) ρ σ es key) :
    EvalFails mv K mes T k (d + 1) ρ σ (.begin es) key := by
  intro W s N hr hw hT hc hs
  obtain ⟨s1, g1, g2, g3, g4, g5⟩ := begin_start (K := K) hr hw hc
  exact (h W s1 N c_nil (hr.adv (k' := k) g1 (by omega)) g3 (hT.later g1.later) g4 (hs.at g1.later g2)).adv g5

/-! ### Calls -/

/-- `pairlis` when there are not enough arguments. -/
theorem pairlis_few {s0 : St} {f args a : Int} {fs : List Int} {r : Option Int} {vs : List Value}
    (hf : IsFormals s0 W.chg f fs r) (ha : IsVals s0 W mes args vs) (hlt : vs.length < fs.length)
    (hw : World s0 W mes σ) (h0 : Grow s0 s) (hr : Room s vs.length) :
    ∃ F, ∀ fuel, F ≤ fuel → pairlis fuel s f args a = err .notAPair := by
  induction fs generalizing s f args vs with
  | nil => simp at hlt
  | cons x xs ih =>
    cases hf with
    | @cons _ _ _ hp hv hx hf =>
      have hpv := h0.valid hp.valid
      have hpc : s.cell f = s0.cell f := h0.same _ hp.valid.2
      cases ha with
      | nil =>
        refine ⟨1, fun fuel hf' => ?_⟩
        obtain ⟨fuel, rfl⟩ : ∃ f, fuel = f + 1 := ⟨fuel - 1, by omega⟩
        have hn := World.nil hw
        have hnv := h0.valid hn.1
        have hnc : (s.cell c_nil).tag = .special := by rw [h0.same _ hn.1.2]; exact hn.2
        simp only [pairlis, if_neg hp.ne, St.rd_ok hpv, ok_bind, hpc, hp.tag, ne_eq, not_true, if_false, carP, St.rd_ok hnv, hnc]
        rfl
      | @cons _ v vs hq hv' ha =>
        have hqv := h0.valid hq.valid
        have hqc : s.cell args = s0.cell args := h0.same _ hq.valid.2
        have e1 := push_ext s { tag := .pair, car := (s0.cell f).car, cdr := (s0.cell args).car }
        have hc1 := cons_ok (hr.mono (by simp; omega)) (s0.cell f).car (s0.cell args).car
        have r1 : Room (s.push { tag := .pair, car := (s0.cell f).car, cdr := (s0.cell args).car }) vs.length := hr.step e1 (by simp; omega)
        generalize s.push { tag := .pair, car := (s0.cell f).car, cdr := (s0.cell args).car } = s1 at *
        have h1 := h0.trans e1.grow
        obtain ⟨F, hF⟩ := ih hf ha (by simpa using hlt) h1 r1
        refine ⟨F + 1, fun fuel hf' => ?_⟩
        obtain ⟨fuel, rfl⟩ : ∃ f, fuel = f + 1 := ⟨fuel - 1, by omega⟩
        have v1 := h1.valid hp.valid
        have c1 : s1.cell f = s0.cell f := h1.same _ hp.valid.2
        have v2 := h1.valid hq.valid
        have c2 : s1.cell args = s0.cell args := h1.same _ hq.valid.2
        simp only [pairlis, if_neg hp.ne, St.rd_ok hpv, ok_bind, hpc, hp.tag, ne_eq, not_true, if_false, carP, St.rd_ok hqv, hqc, hq.tag, hc1,
          cdrP, St.rd_ok v1, c1, St.rd_ok v2, c2, hF fuel (by omega), err_bind]

/-- `pairlis` when there are too many arguments. -/
theorem pairlis_many {s0 : St} {f args a : Int} {fs : List Int} {vs : List Value}
    (hf : IsFormals s0 W.chg f fs none) (ha : IsVals s0 W mes args vs) (hle : fs.length ≤ vs.length)
    (h0 : Grow s0 s) (hr : Room s (2 * fs.length)) :
    ∃ F p s', (∀ fuel, F ≤ fuel → pairlis fuel s f args a = ok (p, s')) ∧ Ext s s' ∧ s'.free = s.free + 2 * fs.length := by
  induction fs generalizing s f args vs with
  | nil =>
    generalize hfs : ([] : List Int) = fs at hf
    generalize hrs : (none : Option Int) = r at hf
    cases hf with
    | nil =>
      refine ⟨1, a, s, fun fuel hf' => ?_, Frame.refl .., by simp⟩
      obtain ⟨fuel, rfl⟩ : ∃ f, fuel = f + 1 := ⟨fuel - 1, by omega⟩
      simp [pairlis]
    | rest => cases hrs
    | cons => cases hfs
  | cons x xs ih =>
    cases hf with
    | @cons _ _ _ hp hv hx hf =>
      have hpv := h0.valid hp.valid
      have hpc : s.cell f = s0.cell f := h0.same _ hp.valid.2
      cases ha with
      | nil => simp at hle
      | @cons _ v vs hq hv' ha =>
        have hqv := h0.valid hq.valid
        have hqc : s.cell args = s0.cell args := h0.same _ hq.valid.2
        have e1 := push_ext s { tag := .pair, car := (s0.cell f).car, cdr := (s0.cell args).car }
        have f1 : (s.push { tag := .pair, car := (s0.cell f).car, cdr := (s0.cell args).car }).free = s.free + 1 := by simp
        have hc1 := cons_ok (hr.mono (by simp; omega)) (s0.cell f).car (s0.cell args).car
        have r1 : Room (s.push { tag := .pair, car := (s0.cell f).car, cdr := (s0.cell args).car }) (2 * xs.length + 1) := hr.step e1 (by simp; omega)
        generalize s.push { tag := .pair, car := (s0.cell f).car, cdr := (s0.cell args).car } = s1 at *
        have h1 := h0.trans e1.grow
        obtain ⟨F, p, s2, hF, e2, f2⟩ := ih hf ha (by simpa using hle) h1 (r1.mono (by omega))
        have r2 : Room s2 1 := r1.step e2 (by omega)
        have e3 := push_ext s2 { tag := .pair, car := s.free, cdr := p }
        have f3 : (s2.push { tag := .pair, car := s.free, cdr := p }).free = s2.free + 1 := by simp
        have hc3 := cons_ok r2 s.free p
        refine ⟨F + 1, s2.free, _, fun fuel hf' => ?_, e1.trans (e2.trans e3), by simp only [List.length_cons]; omega⟩
        obtain ⟨fuel, rfl⟩ : ∃ f, fuel = f + 1 := ⟨fuel - 1, by omega⟩
        have v1 := h1.valid hp.valid
        have c1 : s1.cell f = s0.cell f := h1.same _ hp.valid.2
        have v2 := h1.valid hq.valid
        have c2 : s1.cell args = s0.cell args := h1.same _ hq.valid.2
        simp only [pairlis, if_neg hp.ne, St.rd_ok hpv, ok_bind, hpc, hp.tag, ne_eq, not_true, if_false, carP, St.rd_ok hqv, hqc, hq.tag, hc1,
          cdrP, St.rd_ok v1, c1, St.rd_ok v2, c2, hF fuel (by omega), hc3]

/-- `check_formals` with another number of arguments. -/
theorem checkFormals_count {f args : Int} {fs : List Int} {vs : List Value} (hf : IsFormals s W.chg f fs none)
    (ha : IsVals s W mes args vs) (hne : vs.length ≠ fs.length) (hw : World s W mes σ) :
    ∃ F, ∀ fuel, F ≤ fuel → checkFormals s fuel f args = err .wrongNumberOfArgs := by
  obtain ⟨h1, h2, F1, h3⟩ := formals_length hf (World.nil hw)
  obtain ⟨F2, h4⟩ := vals_length ha
  refine ⟨max F1 F2, fun fuel hfu => ?_⟩
  simp only [checkFormals, St.rd_ok h1, ok_bind, if_neg h2, length__, h3 fuel (by omega), h4 fuel (by omega), if_true]
  exact if_pos ⟨by omega, by omega, by omega⟩

/-- With a rest parameter `check_formals` accepts everything. -/
theorem checkFormals_rest {f args x : Int} {fs : List Int} {vs : List Value} (hf : IsFormals s W.chg f fs (some x))
    (ha : IsVals s W mes args vs) (hw : World s W mes σ) :
    ∃ F, ∀ fuel, F ≤ fuel → checkFormals s fuel f args = ok () := by
  obtain ⟨h1, h2, F1, h3⟩ := formals_length hf (World.nil hw)
  obtain ⟨F2, h4⟩ := vals_length ha
  refine ⟨max F1 F2, fun fuel hfu => ?_⟩
  simp only [checkFormals, St.rd_ok h1, ok_bind, if_neg h2, length__, h3 fuel (by omega), h4 fuel (by omega)]
  exact if_neg fun hc => hc.2.2 (by simp)

/-- Applying a closure, up to the check of the number of arguments. -/
theorem apply_clo {fs : List Int} {r : Option Int} {b : List Expr} {vs : List Value} (hr : Ready s k d) (hw : World s W mes σ)
    (hpair : FixedPair s W.chg s.r1) (hf : IsVal s W mes (s.cell s.r1).car (.clo fs r b ρ)) (hargs : IsVals s W mes (s.cell s.r1).cdr vs) :
    ∃ s0 formals body args a, ∃ N : Idents, Adv W s W s0 0 ∧ World s0 W mes σ ∧ IsFormals s0 W.chg formals fs r ∧ IsVals s0 W mes args vs ∧
      IsSeq s0 W mes (N.under fs r) body b ∧ ¬ N c_closure ∧ IsEnv s0 W (N.except (fs ++ r.toList)) a ρ ∧ (∀ x, N.free x → ρ x = none) ∧ (∀ x gp mp, Moves K ⟨.apply, s, x, gp, mp⟩) ∧
      ∀ x gp mp fuel, step K fuel ⟨.apply, s, x, gp, mp⟩ = (do
        checkFormals s0 fuel formals args
        let (p, s) ← pairlis fuel s0 formals args a
        let s ← callLambda s body p
        ok ⟨.begin, s, x, gp, mp⟩) := by
  have al := alike_proc s (s.cell s.r1).car
  have a1 := al.adv W
  have hf1 := hf.later a1.later
  have hargs1 := hargs.later a1.later
  have hw1 := al.world hw
  have hset := hr.proc (s.cell s.r1).car
  have ec : (s.proc (s.cell s.r1).car).cell = s.cell := rfl
  generalize hfe : (s.cell s.r1).car = f at *
  generalize hae : (s.cell s.r1).cdr = args at *
  generalize s.proc f = s0 at *
  cases hf1 with
  | @clo _ N _ _ _ _ hv ht hm h0 h1 h2 hρ h3 hfo hbo hne hN hfree =>
    refine ⟨s0, _, _, args, _, N, a1, hw1, hfo, hargs1, hbo, hN, hρ, hfree, fun x gp mp => moves_applyClosure _ _ _ hr.top hpair.tag
      (by rw [hfe, ← ec]; exact ht) (by rw [hfe, ← ec]; exact h0.tag) (by rw [hfe, ← ec]; exact h3.tag) (by rw [hfe, ← ec]; exact h1.tag)
      (by rw [hfe, ← ec]; exact h2.tag), fun x gp mp fuel => ?_⟩
    simp only [step, St.rd_ok hpair.valid, ok_bind, hfe, hae, hset, St.rd_ok hv, builtinP_no hv (by rw [ht]; decide), Bool.false_eq_true, if_false, ht,
      applyClosure, St.cdr_ok hv, St.cdr_ok h0.valid, St.cdr_ok h3.valid, St.car_ok h3.valid, St.car_ok h0.valid, St.cdr_ok h1.valid,
      St.cdr_ok h2.valid, bind_assoc']

/-- Applying a lambda expression, up to the check of the number of arguments. -/
theorem apply_lam {fs : List Int} {r : Option Int} {b : List Expr} {vs : List Value} (hr : Ready s k d) (hw : World s W mes σ)
    (hs : IsScope s W N s.r0 ρ) (hp : FixedPair s W.chg s.r1) (hc : IsCode s W mes N (s.cell s.r1).car (.lam fs r b))
    (hargs : IsVals s W mes (s.cell s.r1).cdr vs) :
    ∃ s0 formals body args a, Adv W s W s0 0 ∧ World s0 W mes σ ∧ IsFormals s0 W.chg formals fs r ∧ IsVals s0 W mes args vs ∧
      IsSeq s0 W mes (N.under fs r) body b ∧ IsEnv s0 W N a ρ ∧ (∀ x gp mp, Moves K ⟨.apply, s, x, gp, mp⟩) ∧
      ∀ x gp mp fuel, step K fuel ⟨.apply, s, x, gp, mp⟩ = (do
        let (p, s) ← pairlis fuel s0 formals args a
        checkFormals s fuel formals args
        let s ← callLambda s body p
        ok ⟨.begin, s, x, gp, mp⟩) := by
  cases hc with
  | lam h1 hh h2 hfo hb hne =>
    have al := alike_proc s (s.cell s.r1).car
    have a1 := al.adv W
    have hl := a1.later
    have hset := hr.proc (s.cell s.r1).car
    have e0 : (s.proc (s.cell s.r1).car).r0 = s.r0 := rfl
    have ec : (s.proc (s.cell s.r1).car).cell = s.cell := rfl
    have hv : (s.proc (s.cell s.r1).car).Valid (s.cell s.r1).car := h1.valid
    have hv2 : (s.proc (s.cell s.r1).car).Valid (s.cell (s.cell s.r1).car).cdr := h2.valid
    have hw1 := al.world hw
    have hfo1 := hfo.later hl
    have hb1 := hb.later hl
    have hargs1 := hargs.later hl
    have hs1 := hs.whole.later hl
    generalize s.proc (s.cell s.r1).car = s0 at *
    refine ⟨s0, _, _, _, _, a1, hw1, hfo1, hargs1, hb1, hs1, fun x gp mp => moves_applyLambda _ _ _ hr.top hp.tag h1.tag hh h2.tag, fun x gp mp fuel => ?_⟩
    simp only [step, St.rd_ok hp.valid, ok_bind, hset, St.rd_ok hv, builtinP_no hv (show (s0.cell (s.cell s.r1).car).tag ≠ .struct by rw [ec, h1.tag]; decide),
      Bool.false_eq_true, ec, h1.tag, hh, ↓reduceIte, St.car_ok hv2, St.cdr_ok hv2, e0]

theorem callFails_count {fs : List Int} {b : List Expr} {vs : List Value} (h : vs.length ≠ fs.length) :
    CallFails mv K mes T 0 d σ (.clo fs none b ρ) vs .wrongNumberOfArgs := by
  intro W s hr hw hT hpair hf hargs
  obtain ⟨s0, formals, body, args, a, N, g1, g2, g3, g4, g5, g6, g7, g10, g9, g8⟩ := apply_clo (K := K) hr hw hpair hf hargs
  obtain ⟨F, hF⟩ := checkFormals_count g3 g4 h g2
  exact .step (fun x gp mp _ => g9 x gp mp) F fun x gp mp fuel hf => by rw [g8, hF fuel hf, err_bind]

theorem lamFails_count {fs : List Int} {b : List Expr} {vs : List Value} (h : fs.length < vs.length) :
    LamFails mv K mes T (2 * fs.length) d ρ σ (.lam fs none b) vs .wrongNumberOfArgs := by
  intro W s N hr hw hT hs hp hc hargs
  obtain ⟨s0, formals, body, args, a, g1, g2, g3, g4, g5, g6, g8, g7⟩ := apply_lam (K := K) hr hw hs hp hc hargs
  obtain ⟨F, p, s1, i1, i2, i3⟩ := pairlis_many (a := a) g3 g4 (by omega) (Grow.refl s0) ((hr.adv (k' := 2 * fs.length) g1 (by omega)).room)
  have hl := i2.grow.later W
  obtain ⟨F', hF⟩ := checkFormals_count (g3.later hl) (g4.later hl) (by omega) (i2.world g2)
  exact .step (fun x gp mp _ => g8 x gp mp) (max F F') fun x gp mp fuel hf => by
    rw [g7, i1 fuel (by omega), ok_bind]
    simp only [hF fuel (by omega), err_bind]

theorem lamFails_few {fs : List Int} {r : Option Int} {b : List Expr} {vs : List Value} (h : vs.length < fs.length) :
    LamFails mv K mes T vs.length d ρ σ (.lam fs r b) vs .notAPair := by
  intro W s N hr hw hT hs hp hc hargs
  obtain ⟨s0, formals, body, args, a, g1, g2, g3, g4, g5, g6, g8, g7⟩ := apply_lam (K := K) hr hw hs hp hc hargs
  obtain ⟨F, hF⟩ := pairlis_few (a := a) g3 g4 h g2 (Grow.refl s0) ((hr.adv (k' := vs.length) g1 (by omega)).room)
  exact .step (fun x gp mp _ => g8 x gp mp) F fun x gp mp fuel hf => by rw [g7, hF fuel hf, err_bind]

theorem callFails_few {fs : List Int} {y : Int} {b : List Expr} {vs : List Value} (h : vs.length < fs.length) :
    CallFails mv K mes T vs.length d σ (.clo fs (some y) b ρ) vs .notAPair := by
  intro W s hr hw hT hpair hf hargs
  obtain ⟨s0, formals, body, args, a, N, g1, g2, g3, g4, g5, g6, g7, g10, g9, g8⟩ := apply_clo (K := K) hr hw hpair hf hargs
  obtain ⟨F, hF⟩ := checkFormals_rest g3 g4 g2
  obtain ⟨F', hF'⟩ := pairlis_few (a := a) g3 g4 h g2 (Grow.refl s0) ((hr.adv (k' := vs.length) g1 (by omega)).room)
  exact .step (fun x gp mp _ => g9 x gp mp) (max F F') fun x gp mp fuel hf => by rw [g8, hF fuel (by omega), ok_bind, hF' fuel (by omega), err_bind]

theorem callFails_body {fs : List Int} {r : Option Int} {b : List Expr} {vs ps : List Value} (hp : paramVals fs r vs = some ps)
    (hb : SeqFails mv K mes T .beginLoop k d (bindAll (fs ++ r.toList) σ.vals.length ρ) { σ with vals := σ.vals ++ ps } b key) :
    CallFails mv K mes T (2 * ps.length + 2 + k) d σ (.clo fs r b ρ) vs key := by
  intro W s hr hw hT hpair hf hargs
  obtain ⟨s0, formals, body, args, a, N, g1, g2, g3, g4, g5, g6, g7, g10, g9, g8⟩ := apply_clo (K := K) hr hw hpair hf hargs
  obtain ⟨F, p, s1, s2, W2, h1, h2, h3, h4, h5, h6⟩ := enter_env (hr.adv (k' := 2 * ps.length + 2 + k) g1 (by omega)) g2 g3 g4 hp g5 g6 g7 g10
  refine (hb W2 s2 _ c_nil h3 h4 ((hT.later g1.later).later h2.later) h5.seg h6).adv fun x gp mp => ⟨c_unspecified, ?_⟩
  refine Walk.trans (v' := ⟨.begin, s2, x, gp, mp⟩) (.fuel (fun _ => g9 x gp mp) F fun fuel hf => ?_) (.one (fun _ => moves_begin ..) fun fuel => rfl)
  obtain ⟨i1, i2, i3, i4⟩ := h1 fuel hf
  rw [g8, i1, ok_bind, i2, ok_bind]
  simp only [i4, ok_bind]

theorem lamFails_body {fs : List Int} {r : Option Int} {b : List Expr} {vs ps : List Value} (hp : paramVals fs r vs = some ps)
    (hb : SeqFails mv K mes T .beginLoop k d (bindAll (fs ++ r.toList) σ.vals.length ρ) { σ with vals := σ.vals ++ ps } b key) :
    LamFails mv K mes T (2 * ps.length + 2 + k) d ρ σ (.lam fs r b) vs key := by
  intro W s N hr hw hT hs hpair hc hargs
  obtain ⟨s0, formals, body, args, a, g1, g2, g3, g4, g5, g6, g8, g7⟩ := apply_lam (K := K) hr hw hs hpair hc hargs
  obtain ⟨F, p, s1, s2, W2, h1, h2, h3, h4, h5, h6⟩ := enter_env (hr.adv (k' := 2 * ps.length + 2 + k) g1 (by omega)) g2 g3 g4 hp g5 hs.mark (g6.except _) hs.free
  refine (hb W2 s2 _ c_nil h3 h4 ((hT.later g1.later).later h2.later) h5.seg h6).adv fun x gp mp => ⟨c_unspecified, ?_⟩
  refine Walk.trans (v' := ⟨.begin, s2, x, gp, mp⟩) (.fuel (fun _ => g8 x gp mp) F fun fuel hf => ?_) (.one (fun _ => moves_begin ..) fun fuel => rfl)
  obtain ⟨i1, i2, i3, i4⟩ := h1 fuel hf
  rw [g7, i2, ok_bind]
  simp only [i3, i4, ok_bind]

/-- Applying a builtin, up to the check of the number of arguments. -/
theorem apply_prim {n id : Int} {vs : List Value} (hr : Ready s (k + 1) d) (hw : World s W mes σ)
    (hpair : FixedPair s W.chg s.r1) (hf : IsVal s W mes (s.cell s.r1).car (.prim n id)) (hargs : IsVals s W mes (s.cell s.r1).cdr vs) :
    ∃ s1 f args a, Adv W s W s1 1 ∧ World s1 W mes σ ∧ IsBuiltin s1 W.chg f n id ∧ IsVals s1 W mes args vs ∧ IsNum s1 a n ∧
      ∀ x gp mp fuel, step K fuel ⟨.apply, s, x, gp, mp⟩ = (do
        checkFormals s1 fuel a args
        let (r, s) ← applyBuiltin K s1 fuel f args
        ok ⟨.vmReturn, { s with r1 := r }, x, gp, mp⟩) := by
  have al := alike_proc s (s.cell s.r1).car
  have a1 := al.adv W
  have hf1 := hf.later a1.later
  have hargs1 := hargs.later a1.later
  have hw1 := al.world hw
  have hr1 := hr.adv (k' := k + 1) a1 (by omega)
  have hset := hr.proc (s.cell s.r1).car
  generalize hfe : (s.cell s.r1).car = f at *
  generalize hae : (s.cell s.r1).cdr = args at *
  generalize s.proc f = s0 at *
  cases hf1 with
  | prim hb =>
    have hbs := World.fixed_cell hw1 (a := c_symbol_builtin) (by decide) (by decide)
    have hbi := hb.isBuiltin hbs
    have e1 := push_ext s0 { tag := .number, car := 0, cdr := n }
    have f1 : (s0.push { tag := .number, car := 0, cdr := n }).free = s0.free + 1 := by simp
    have v1 := hr1.room.push_isNum n
    have ha := hb.arity_ok (hr1.room.mono (by omega))
    generalize s0.push { tag := .number, car := 0, cdr := n } = s1 at *
    have a2 := e1.adv (j := 1) (by omega) W
    refine ⟨s1, f, args, s0.free, (a1.trans a2).mono (by omega), e1.world hw1, hb.later a2.later, hargs1.later a2.later, v1, fun x gp mp fuel => ?_⟩
    simp only [step, St.rd_ok hpair.valid, ok_bind, hfe, hae, hset, St.rd_ok hb.valid, hbi, ↓reduceIte, applyPrim, ha, bind_assoc']

theorem callFails_arity {n id : Int} {vs : List Value} (h : n ≠ vs.length) (hn : n ≠ -1) :
    CallFails mv K mes T 1 d σ (.prim n id) vs .wrongNumberOfArgs := by
  intro W s hr hw hT hpair hf hargs
  obtain ⟨s1, f, args, a, g1, g2, g3, g4, g5, g6⟩ := apply_prim (K := K) (k := 0) hr hw hpair hf hargs
  obtain ⟨F, hlen⟩ := vals_length g4
  refine .step (fun x gp mp _ => moves_applyPrim _ _ _ hr.top hw hpair.tag hf.builtin hargs hr.room fun e => absurd e (not_or.2 ⟨hn, h⟩)) F fun x gp mp fuel hf => ?_
  have : checkFormals s1 fuel a args = err .wrongNumberOfArgs := by
    simp only [checkFormals, St.rd_ok g5.valid, ok_bind, g5.tag, g5.value, length__, hlen fuel (by omega), ↓reduceIte]
    exact if_pos ⟨by omega, by omega, hn⟩
  rw [g6, this, err_bind]

theorem callFails_prim (hK : Raises K.builtin mes ε) {n id : Int} {vs : List Value} (h : ε n id vs key)
    (hm : mv → MovesBuiltin K.builtin mes n id vs) :
    ∃ k, ∀ d σ, CallFails mv K mes T k d σ (.prim n id) vs key := by
  obtain ⟨hn, k, hk⟩ := hK n id vs key h
  refine ⟨(k + 2) + 1, fun d σ W s hr hw hT hpair hf hargs => ?_⟩
  obtain ⟨s1, f, args, a, g1, g2, g3, g4, g5, g6⟩ := apply_prim (K := K) hr hw hpair hf hargs
  obtain ⟨F1, hlen⟩ := vals_length g4
  have hr1 := hr.adv (k' := k + 2) g1 (by omega)
  obtain ⟨us, s2, i1, i2, i3, i4⟩ := applyBuiltin_ok (K := K) g3 g2 g4 hn (hr1.room.mono (by omega))
  obtain ⟨F2, j1⟩ := hk s2 W σ us (i1.world g2) ((hr1.adv (k' := k) (i1.adv (j := 2) (by omega) W) (by omega)).room) i3
  refine .step (fun x gp mp q => moves_applyPrim _ _ _ hr.top hw hpair.tag hf.builtin hargs (hr.room.mono (by omega))
    fun _ => ⟨hn, hr.room.mono (by omega), hm q⟩) (max F1 F2) fun x gp mp fuel hf => ?_
  have hcf : checkFormals s1 fuel a args = ok () := by
    simp only [checkFormals, St.rd_ok g5.valid, ok_bind, g5.tag, g5.value, length__, hlen fuel (by omega), ↓reduceIte]
    refine if_neg fun hc => ?_
    rcases hn with rfl | ⟨rfl, _⟩
    · exact hc.2.2 rfl
    · exact hc.1 (by simp)
  rw [g6, hcf, ok_bind, i4, j1 fuel (by omega), err_bind]

/-! ### Applications -/

/-- `check_apply` rejects what is not a procedure. -/
theorem checkApply_bad {f : Int} {fv : Value} (h : NotProc T fv) (hT : Strings s W T) (hf : IsVal s W mes f fv) :
    checkApply s f = err .wrongTypeArg := by
  have hv := hf.valid
  simp only [checkApply, St.rd_ok hv, ok_bind]
  refine if_pos ?_
  cases hf with
  | int hn => right; right; right; right; right; right; left; exact hn.tag
  | char hn => right; right; right; right; right; left; exact hn.tag
  | obj =>
    rcases h with h | h | h | h | h
    · exact .inl h
    · exact .inr (.inl h)
    · exact .inr (.inr (.inl h))
    · exact .inr (.inr (.inr (.inl h)))
    · right; right; right; right; right; right; right; left; exact (hT _ h).2.1
  | _ => exact h.elim

/-- The value of the operator in a call from `core:apply` is not a procedure: it evaluates to itself, and is rejected. -/
theorem callFails_notProc {fv : Value} {vs : List Value} (h : NotProc T fv) : CallFails mv K mes T 0 (d + 1) σ fv vs .wrongTypeArg := by
  intro W s hr hw hT hp hf hargs
  have hv := hf.valid
  have hset := hr.proc (s.cell s.r1).car
  have e0 : (s.proc (s.cell s.r1).car).cell = s.cell := rfl
  have hv0 : (s.proc (s.cell s.r1).car).Valid (s.cell s.r1).car := hv
  by_cases hsp : (s.cell (s.cell s.r1).car).tag = .special
  · have hne : (s.cell s.r1).car ≠ c_vm_apply ∧ (s.cell s.r1).car ≠ c_vm_eval ∧ (s.cell s.r1).car ≠ c_vm_begin_expand := by
      generalize (s.cell s.r1).car = a at *
      cases hf with
      | int h' => rw [h'.tag] at hsp; cases hsp
      | char h' => rw [h'.tag] at hsp; cases hsp
      | obj =>
        rcases h with h | h | h | h | h
        · rw [h]; decide
        · rw [h]; decide
        · rw [h]; decide
        · rw [h]; decide
        · rw [(hT _ h).2.1] at hsp; cases hsp
      | _ => exact h.elim
    have hff := World.false_ ((alike_proc s (s.cell s.r1).car).world hw)
    have hm := fun x gp mp => moves_applyBad (K := K) x gp mp hr.top hp.tag hsp hne.1 hne.2.1 hne.2.2
    generalize s.proc (s.cell s.r1).car = s0 at *
    refine .step (fun x gp mp _ => hm x gp mp) 0 fun x gp mp fuel _ => ?_
    simp only [step, St.rd_ok hp.valid, ok_bind, hset, St.rd_ok hv0, e0, builtinP_no hv0 (show (s0.cell (s.cell s.r1).car).tag ≠ .struct by rw [e0, hsp]; decide),
      hsp, Bool.false_eq_true, if_false, if_neg hne.1, if_neg hne.2.1, if_neg hne.2.2, checkApply, St.rd_ok hff.1, true_or, if_true, err_bind]
  · have ht : (s.cell (s.cell s.r1).car).tag ∈ [Tag.number, .char, .string] := by
      generalize (s.cell s.r1).car = a at *
      cases hf with
      | int h' => rw [h'.tag]; decide
      | char h' => rw [h'.tag]; decide
      | obj =>
        have fx : ∀ a, c_nil ≤ a → a < 46 → (s.cell a).tag = .special := fun a h1 h2 => by
          have := (World.fixed_cell hw h1 (Int.lt_trans h2 (by decide))).2
          rwa [if_pos h2] at this
        rcases h with h | h | h | h | h
        · exact absurd (by rw [h]; exact fx _ (by decide) (by decide)) hsp
        · exact absurd (by rw [h]; exact fx _ (by decide) (by decide)) hsp
        · exact absurd (by rw [h]; exact fx _ (by decide) (by decide)) hsp
        · exact absurd (by rw [h]; exact fx _ (by decide) (by decide)) hsp
        · rw [(hT _ h).2.1]; decide
      | _ => exact h.elim
    have al := alike_proc s (s.cell s.r1).car
    have a1 := al.adv W
    have hr1 := hr.adv (k' := 0) a1 (by omega)
    have hto : (s.cell (s.cell s.r1).car).tag ∉ [Tag.struct, .closure, .continuation, .special, .symbol, .pair] := by
      simp only [List.mem_cons, List.not_mem_nil, or_false] at ht; rcases ht with h | h | h <;> rw [h] <;> decide
    have hstep := step_apply_other (K := K) hr hp hv hto
    have hm := moves_apply_other (K := K) hr hp hto
    have hw1 := al.world hw
    generalize s.proc (s.cell s.r1).car = s1 at *
    have hg := grow_pushed s1 (s.cell s.r1).car s.r1 s.r0 c_vm_apply2
    have hl := a1.later.trans (hg.later W)
    have hr2 := hr1.pushed (s.cell s.r1).car s.r1 s.r0 c_vm_apply2
    refine (Outcome.fails mv K mes .wrongTypeArg).call (k' := 0) (n := 0) (l'' := .apply2) (l' := .eval) (P := Gives mes fv) (σ₁ := σ) (k := 0) ?_ a1
      (fun x gp mp => ⟨x, .one (fun _ => hm x gp mp) fun fuel => by rw [hstep, hr1.pushCc, ok_bind]⟩) (by decide) (by omega) fun W2 s2 ha2 _ _ hw2 hv2 => ?_
    · have ht3 : ∀ tg, tg ∉ [Tag.number, .char, .string] →
          ((s1.pushed (s.cell s.r1).car s.r1 s.r0 c_vm_apply2).cell (s1.pushed (s.cell s.r1).car s.r1 s.r0 c_vm_apply2).r1).tag ≠ tg := by
        intro tg h1 h2
        refine h1 (h2 ▸ ?_)
        show (s1.cell _).tag ∈ _
        rw [e0]
        exact ht
      refine (Sub.retVal hr2 (hw1.grow hg rfl) (hf.later hl)).tail (j := 0) (fun x gp mp => ⟨x, .one (fun _ => moves_self _ _ _ (ht3 _ (by decide)) (ht3 _ (by decide)) (ht3 _ (by decide))) fun fuel => step_eval_self ?_ ?_⟩) (.refl _) (.refl W _) (by omega)
      · exact hv0
      · have e : ((s1.pushed (s.cell s.r1).car s.r1 s.r0 c_vm_apply2).cell (s1.pushed (s.cell s.r1).car s.r1 s.r0 c_vm_apply2).r1).tag = (s.cell (s.cell s.r1).car).tag := by
          show (s1.cell _).tag = _
          rw [e0]
          rfl
        simp only [List.mem_cons, List.not_mem_nil, or_false] at ht
        rw [e]
        rcases ht with h | h | h <;> rw [h] <;> decide
    · refine .step (fun x gp mp _ => moves_apply2 _ _ _ fun t ht => by
        rw [checkApply_bad h ((hT.later a1.later).later ha2.later) hv2] at ht; cases ht) 0 fun x gp mp fuel _ => ?_
      simp only [step, checkApply_bad h ((hT.later a1.later).later ha2.later) hv2, err_bind]

/-- `core:apply`, if the call fails. -/
theorem callFails_apply {f : Value} {vs rest : List Value} (h : CallFails mv K mes T k d σ f vs key) :
    CallFails mv K mes T (1 + k) (d + 1) σ (.obj c_vm_apply) (f :: listVal vs :: rest) key := by
  intro W s hr hw hT hpair hf hargs
  obtain ⟨s1, p, g1, g2, g3, g4, g5, g6, g8, g7⟩ := apply_list (K := K) hr hw hpair hf hargs
  exact (h W _ (g2.pushed ..) g3 ((hT.later g1.later).later ((grow_pushed ..).later W)) g4 g5 g6).steps fun x gp mp => .one (fun _ => g8 x gp mp) fun fuel => g7 x gp mp fuel

/-- What is known about a failing call. -/
def CallFailInfo (mv : Prop) (K : Calls) (mes : Bool) (T : Int → Prop) (d : Nat) (σ : Store) (lit : Prop) (fv : Value) (vs : List Value) (key : Key) : Prop :=
  NotProc T fv ∧ key = .wrongTypeArg ∨
  IsProc fv ∧ (¬ lit → ∃ k, CallFails mv K mes T k d σ fv vs key) ∧
    (lit → ∀ fs r b ρ, fv = .clo fs r b ρ → ∃ k, LamFails mv K mes T k d ρ σ (.lam fs r b) vs key)

/-- A second evaluation of the operator that raises the error. -/
theorem apply_failing {e : Expr} (he : EvalFails mv K mes T k d ρ σ e key)
    (hr : Ready s k (d + 1)) (hw : World s W mes σ) (hT : Strings s W T) (hs : IsScope s W N s.r0 ρ)
    (hc : IsCode s W mes N (s.cell s.r1).car e)
    (hstep : ∀ x gp mp fuel, step K fuel ⟨.apply, s, x, gp, mp⟩ =
      (do let s ← pushCc (s.proc (s.cell s.r1).car) (s.cell s.r1).car s.r1 s.r0 c_vm_apply2; ok ⟨.eval, s, x, gp, mp⟩))
    (hm : ∀ x gp mp, mv → Moves K ⟨.apply, s, x, gp, mp⟩) : FailsAt mv K .apply s key := by
  have al := alike_proc s (s.cell s.r1).car
  have a1 := al.adv W
  have hr1 := hr.adv (k' := k) a1 (by omega)
  have hw1 := al.world hw
  generalize s.proc (s.cell s.r1).car = s1 at *
  have hg1 := grow_pushed s1 (s.cell s.r1).car s.r1 s.r0 c_vm_apply2
  have hlp := a1.later.trans (hg1.later W)
  refine (he W _ N (hr1.pushed ..) (hw1.grow hg1 rfl) (hT.later hlp) (hc.later hlp) (hs.later hlp)).steps fun x gp mp => .one (hm x gp mp) fun fuel => ?_
  rw [hstep, hr1.pushCc, ok_bind]

/-- The steps from `apply` for an operator that is not a procedure yet and not a lambda expression. -/
theorem apply_pushes {e : Expr} {n : Nat} (hl : ¬ IsLam e) (hr : Ready s n d) (hp : FixedPair s W.chg s.r1)
    (hc : IsCode s W mes N (s.cell s.r1).car e)
    (hsp : (s.cell (s.cell s.r1).car).tag ∉ [Tag.struct, .closure, .continuation, .special] ∨ (s.cell (s.cell s.r1).car).tag = .pair) :
    ∀ x gp mp fuel, step K fuel ⟨.apply, s, x, gp, mp⟩ =
      (do let s ← pushCc (s.proc (s.cell s.r1).car) (s.cell s.r1).car s.r1 s.r0 c_vm_apply2; ok ⟨.eval, s, x, gp, mp⟩) := by
  have pair : ∀ c, c = (s.cell s.r1).car → FixedPair s W.chg c → (s.cell c).car ≠ c_symbol_lambda → ∀ x gp mp fuel, step K fuel ⟨.apply, s, x, gp, mp⟩ =
      (do let s ← pushCc (s.proc (s.cell s.r1).car) (s.cell s.r1).car s.r1 s.r0 c_vm_apply2; ok ⟨.eval, s, x, gp, mp⟩) := by
    rintro c rfl h1 h2
    exact step_apply_pair hr hp h1 h2
  cases id hc with
  | const h ht hm =>
    have hpt : (s.cell (s.cell s.r1).car).tag ≠ .pair := ht.1
    refine step_apply_other hr hp h.valid ?_
    rcases hsp with hsp | hsp
    · simp only [List.mem_cons, List.not_mem_nil, or_false, not_or] at hsp ⊢
      exact ⟨hsp.1, hsp.2.1, hsp.2.2.1, hsp.2.2.2, ht.2.1, hpt⟩
    · exact absurd hsp hpt
  | quote h1 hh => exact pair _ rfl h1 (by rw [hh]; decide)
  | var hx hN hres => exact step_apply_var hr hp hx hres
  | global hg => exact step_apply_other hr hp hg.valid (by rw [hg.tag]; decide)
  | ite h1 hh => exact pair _ rfl h1 (by rw [hh]; decide)
  | ifOnly h1 hh => exact pair _ rfl h1 (by rw [hh]; decide)
  | begin h1 hh => exact pair _ rfl h1 (by rw [hh]; decide)
  | set h1 hh => exact pair _ rfl h1 (by rw [hh]; decide)
  | app h1 hh => exact pair _ rfl h1 fun e => hh (by unfold SpecialForm; simp [e])
  | lam => exact absurd trivial hl

theorem moves_pushes {e : Expr} {n : Nat} (hl : ¬ IsLam e) (hr : Ready s n d) (hp : FixedPair s W.chg s.r1)
    (hc : IsCode s W mes N (s.cell s.r1).car e)
    (hsp : (s.cell (s.cell s.r1).car).tag ∉ [Tag.struct, .closure, .continuation, .special] ∨ (s.cell (s.cell s.r1).car).tag = .pair) :
    ∀ x gp mp, Moves K ⟨.apply, s, x, gp, mp⟩ := by
  have pair : ∀ c, c = (s.cell s.r1).car → FixedPair s W.chg c → (s.cell c).car ≠ c_symbol_lambda → ∀ x gp mp, Moves K ⟨.apply, s, x, gp, mp⟩ := by
    rintro c rfl h1 h2
    exact moves_apply_pair hr hp h1 h2
  cases id hc with
  | const h ht hm =>
    have hpt : (s.cell (s.cell s.r1).car).tag ≠ .pair := ht.1
    refine moves_apply_other hr hp ?_
    rcases hsp with hsp | hsp
    · simp only [List.mem_cons, List.not_mem_nil, or_false, not_or] at hsp ⊢
      exact ⟨hsp.1, hsp.2.1, hsp.2.2.1, hsp.2.2.2, ht.2.1, hpt⟩
    · exact absurd hsp hpt
  | quote h1 hh => exact pair _ rfl h1 (by rw [hh]; decide)
  | var hx hN hres => exact moves_apply_var hr hp hx hres
  | global hg => exact moves_apply_other hr hp (by rw [hg.tag]; decide)
  | ite h1 hh => exact pair _ rfl h1 (by rw [hh]; decide)
  | ifOnly h1 hh => exact pair _ rfl h1 (by rw [hh]; decide)
  | begin h1 hh => exact pair _ rfl h1 (by rw [hh]; decide)
  | set h1 hh => exact pair _ rfl h1 (by rw [hh]; decide)
  | app h1 hh => exact pair _ rfl h1 fun e => hh (by unfold SpecialForm; simp [e])
  | lam => exact absurd trivial hl

theorem code_tag {c : Int} {e : Expr} (hc : IsCode s W mes N c e) (he : ∀ l, e ≠ .const l) :
    (s.cell c).tag ∉ [Tag.struct, .closure, .continuation, .special] ∨ (s.cell c).tag = .pair := by
  cases hc with
  | const => exact absurd rfl (he _)
  | var hx => left; rw [hx.tag]; decide
  | global hx => left; rw [hx.tag]; decide
  | quote h => exact .inr h.tag
  | ite h => exact .inr h.tag
  | ifOnly h => exact .inr h.tag
  | begin h => exact .inr h.tag
  | set h => exact .inr h.tag
  | app h => exact .inr h.tag
  | lam h => exact .inr h.tag

/-- Applying the value of `f`, which fails. -/
theorem apply_fails {f : Expr} {fv : Value} {vs : List Value} (hf : EvalInfo mv K mes d ρ σ₁ f fv σ₂) (hev : Eval mes δ d ρ σ₁ f fv σ₂)
    (hcall : CallFailInfo mv K mes T (d + 1) σ₂ (IsLam f) fv vs key) :
    ∃ k, ∀ W s N, Ready s k (d + 1) → World s W mes σ₁ → Strings s W T → IsScope s W N s.r0 ρ → FixedPair s W.chg s.r1 →
      IsCode s W mes N (s.cell s.r1).car f → IsVals s W mes (s.cell s.r1).cdr vs → FailsAt mv K .apply s key := by
  obtain ⟨⟨k1, hf⟩, -⟩ := hf
  rcases hcall with ⟨hbad, rfl⟩ | ⟨hproc, h1, h2⟩
  · have hnl : ¬ IsLam f := by
      intro h
      cases f <;> try exact h.elim
      cases hev; exact hbad.elim
    refine ⟨k1 + 0, fun W s N hr hw hT hs hp hc hargs => ?_⟩
    by_cases hsp : (s.cell (s.cell s.r1).car).tag ∉ [Tag.struct, .closure, .continuation, .special] ∨ (s.cell (s.cell s.r1).car).tag = .pair
    · refine apply_eval (.fails ..) (k2 := 0) hf hr (by omega) hw hs hp hc hargs (apply_pushes hnl hr hp hc hsp)
        (fun x gp mp _ => moves_pushes hnl hr hp hc hsp x gp mp)
        fun W2 s2 hl2 hr2 hw2 hp2 hv2 hargs2 => .step (fun x gp mp _ => moves_apply2 _ _ _ fun t ht => by
          rw [checkApply_bad hbad (hT.later hl2) hv2] at ht; cases ht) 0 fun x gp mp fuel _ => ?_
      simp only [step, checkApply_bad hbad (hT.later hl2) hv2, err_bind]
    · have hcl : ∃ l, f = .const l := by
        by_cases h : ∃ l, f = .const l
        · exact h
        · exact absurd (code_tag hc fun l e => h ⟨l, e⟩) hsp
      obtain ⟨l, rfl⟩ := hcl
      cases hev
      have hcv : IsLiteral s W.chg (s.cell s.r1).car l := by cases hc with | const h => exact h
      have e0 : (s.proc (s.cell s.r1).car).cell = s.cell := rfl
      have hv : (s.proc (s.cell s.r1).car).Valid (s.cell s.r1).car := hcv.valid
      simp only [not_or, Classical.not_not] at hsp
      have hspec : (s.cell (s.cell s.r1).car).tag = .special ∧ (s.cell s.r1).car ≠ c_vm_apply ∧ (s.cell s.r1).car ≠ c_vm_eval ∧
          (s.cell s.r1).car ≠ c_vm_begin_expand := by
        cases hcv with
        | int h => rw [h.tag] at hsp; simp at hsp
        | char h => rw [h.tag] at hsp; simp at hsp
        | pair h => rw [h.tag] at hsp; simp at hsp
        | obj _ _ hu =>
          have fx : ∀ a, c_nil ≤ a → a < 46 → (s.cell a).tag = .special := fun a h1 h2 => by
            have := (World.fixed_cell hw h1 (Int.lt_trans h2 (by decide))).2
            rwa [if_pos h2] at this
          rcases hbad with h | h | h | h | h
          · rw [h]; exact ⟨fx _ (by decide) (by decide), by decide, by decide, by decide⟩
          · rw [h]; exact ⟨fx _ (by decide) (by decide), by decide, by decide, by decide⟩
          · rw [h]; exact ⟨fx _ (by decide) (by decide), by decide, by decide, by decide⟩
          · rw [h]; exact ⟨fx _ (by decide) (by decide), by decide, by decide, by decide⟩
          · rw [(hT _ h).2.1] at hsp; simp at hsp
      have hset := hr.proc (s.cell s.r1).car
      have hfv := (alike_proc s (s.cell s.r1).car).world hw
      have hff := World.false_ hfv
      have hm := fun x gp mp => moves_applyBad (K := K) x gp mp hr.top hp.tag hspec.1 hspec.2.1 hspec.2.2.1 hspec.2.2.2
      generalize s.proc (s.cell s.r1).car = s0 at *
      refine .step (fun x gp mp _ => hm x gp mp) 0 fun x gp mp fuel _ => ?_
      simp only [step, St.rd_ok hp.valid, ok_bind, hset, St.rd_ok hv, e0, builtinP_no hv (show (s0.cell (s.cell s.r1).car).tag ≠ .struct by rw [e0, hspec.1]; decide),
        hspec.1, Bool.false_eq_true, if_false, if_neg hspec.2.1, if_neg hspec.2.2.1, if_neg hspec.2.2.2, checkApply, St.rd_ok hff.1, true_or, if_true, err_bind]
  · by_cases hl : IsLam f
    · cases f <;> try exact hl.elim
      cases hev
      obtain ⟨k, hk⟩ := h2 hl _ _ _ _ rfl
      exact ⟨k, fun W s N hr hw hT hs hp hc hargs => hk W s N hr hw hT hs hp hc hargs⟩
    · obtain ⟨k2, hk⟩ := h1 hl
      refine ⟨k1 + (k2 + 1), fun W s N hr hw hT hs hp hc hargs => ?_⟩
      by_cases hnc : ∃ l, f = .const l
      · obtain ⟨l, rfl⟩ := hnc
        cases hev
        refine hk W s (hr.mono (by omega) (Nat.le_refl _)) hw hT hp ?_ hargs
        cases hc with
        | const h => exact h.isVal
      have hnc : ∀ l, f ≠ .const l := fun l e => hnc ⟨l, e⟩
      refine apply_eval (.fails ..) (k2 := k2 + 1) hf hr (by omega) hw hs hp hc hargs (apply_pushes hl hr hp hc (code_tag hc hnc))
        (fun x gp mp _ => moves_pushes hl hr hp hc (code_tag hc hnc) x gp mp)
        fun W2 s2 hl2 hr2 hw2 hp2 hv2 hargs2 => ?_
      have hca := checkApply_ok hproc hv2 hw2
      obtain ⟨s3, g1, g2, g3, g4, g5, g6, g7⟩ := push_pair hr2 hw2 s2.r1 (s2.cell s2.r2).cdr
      refine (hk W2 _ g3 g4 ((hT.later hl2).later g2.later) g5 ?_ ?_).steps (fun x gp mp => .one (fun _ => moves_apply2 _ _ _ fun t ht => by
        rw [hca] at ht; cases ht; exact hp2.tag) fun fuel => ?_)
      · show IsVal _ _ _ (s3.cell s2.free).car _
        rw [g7]; exact Spec.IsVal.later hv2 g2.later
      · show IsVals _ _ _ (s3.cell s2.free).cdr _
        rw [g7]; exact hargs2.later g2.later
      · simp only [step, hca, ok_bind, St.cdr_ok hp2.valid, g1]

/-- The operator fails. -/
theorem fails_operator {f : Expr} {args : List Expr} (h : EvalFails mv K mes T k d ρ σ f key) : EvalFails mv K mes T k (d + 1) ρ σ (.app f args) key := by
  intro W s N hr hw hT hco hs
  cases hco with
  | app hp hh hc hcs hdir =>
    have hg1 := grow_pushed s (s.cell s.r1).car s.r1 s.r0 c_vm_eval_check_func
    have hl1 := hg1.later W
    exact (h W _ N (hr.pushed ..) (hw.grow hg1 rfl) (hT.later hl1) (hc.later hl1) (hs.later hl1)).steps
      fun x gp mp => .one (fun _ => moves_app _ _ _ hp.tag hh fun fuel => (hr.pushed ..).gcCheck fuel) fun fuel => step_app hr hp hh x gp mp fuel

theorem fails_operands {f : Expr} {args : List Expr} {w : Value} {k0 ka : Nat} (h0 : EvalOk mv K mes k0 d ρ σ f w σ₀)
    (ha : ArgsFail mv K mes T ka d ρ σ₀ args key) : EvalFails mv K mes T (k0 + ka) (d + 1) ρ σ (.app f args) key := by
  intro W s N hr hw hT hco hs
  refine app_first (.fails ..) (fun W s N hr hw hc hs _ => ⟨w, h0 W s N hr hw hc hs⟩) hr hw hco hs fun W1 s1 ha1 hr1 hw1 hr21 hs1 => ?_
  cases hco with
  | app hp hh hc hcs hdir =>
    have ec := hp.cell_eq ha1.later
    have hp1 := hp.later ha1.later
    have hg2 := grow_pushed s1 (s.cell s.r1).cdr s1.r2 s1.r0 c_vm_eval2
    have hl2 := hg2.later W1
    refine (ha W1 _ N (hr1.pushed ..) (hw1.grow hg2 rfl) ((hT.later ha1.later).later hl2) ((hcs.later ha1.later).later hl2) (hs1.later hl2)).steps
      fun x gp mp => .one (fun _ => moves_checkFunc _ _ _ (by rw [hr21]; exact hp1.tag)) fun fuel => ?_
    simp only [step, hr21, St.cdr_ok hp1.valid, ok_bind, ec, hr1.pushCc]

theorem fails_apply {f : Expr} {args : List Expr} {w : Value} {vs : List Value} {k0 ka k1 : Nat} (h0 : EvalOk mv K mes k0 d ρ σ f w σ₀)
    (ha : ArgsOk mv K mes ka d ρ σ₀ args vs σ₁)
    (h : ∀ W s N, Ready s k1 (d + 1) → World s W mes σ₁ → Strings s W T → IsScope s W N s.r0 ρ → FixedPair s W.chg s.r1 →
      IsCode s W mes N (s.cell s.r1).car f → IsVals s W mes (s.cell s.r1).cdr vs → FailsAt mv K .apply s key) :
    EvalFails mv K mes T (k0 + (ka + (1 + k1))) (d + 1) ρ σ (.app f args) key := by
  intro W s N hr hw hT hco hs
  refine app_first (.fails ..) (fun W s N hr hw hc hs _ => ⟨w, h0 W s N hr hw hc hs⟩) hr hw hco hs fun W1 s1 ha1 hr1 hw1 hr21 hs1 => ?_
  cases hco with
  | app hp hh hc hcs hdir =>
    have ec := hp.cell_eq ha1.later
    refine app_args (.fails ..) ha hr1 hw1 hr21 (hp.later ha1.later) (by rw [ec]; exact hcs.later ha1.later) (by rw [ec]; exact hc.later ha1.later) hs1
      fun W2 s2 hl2 hr2 hw2 hs2 hp2 hc2 hargs => ?_
    exact h W2 s2 N hr2 hw2 ((hT.later ha1.later).later hl2) hs2 hp2 hc2 hargs

theorem failsAgain {f : Expr} {vs : List Value} (he : EvalFails mv K mes T k d ρ σ₁ f key) :
    (∀ W s N, Ready s k (d + 1) → World s W mes σ₁ → Strings s W T → IsScope s W N s.r0 ρ → FixedPair s W.chg s.r1 →
      IsCode s W mes N (s.cell s.r1).car f → IsVals s W mes (s.cell s.r1).cdr vs → FailsAt mv K .apply s key) ∨
    (∃ l, f = .const l) ∨ IsLam f := by
  by_cases hl : IsLam f
  · exact .inr (.inr hl)
  · by_cases hcn : ∃ l, f = .const l
    · exact .inr (.inl hcn)
    · left
      intro W s N hr hw hT hs hp hc _
      exact apply_failing he hr hw hT hs hc (apply_pushes hl hr hp hc (code_tag hc fun l e => hcn ⟨l, e⟩))
        fun x gp mp _ => moves_pushes hl hr hp hc (code_tag hc fun l e => hcn ⟨l, e⟩) x gp mp

/-- Where the semantics says that an expression raises an error, the machine raises it. -/
theorem sim_fail (hK : Implements K.builtin mes δ) (hE : Raises K.builtin mes ε)
    (hm : mv → ∀ n id vs v, δ n id vs v → MovesBuiltin K.builtin mes n id vs)
    (he : mv → ∀ n id vs key, ε n id vs key → MovesBuiltin K.builtin mes n id vs) {e : Expr} (h : Fail mes δ ε T d ρ σ e key) :
    FailInfo mv K mes T d ρ σ e key := by
  refine Fail.rec (motive_1 := fun d ρ σ e key _ => FailInfo mv K mes T d ρ σ e key)
    (motive_2 := fun d ρ σ es key _ => ∃ k, ArgsFail mv K mes T k d ρ σ es key)
    (motive_3 := fun d ρ σ es key _ => SeqFailInfo mv K mes T d ρ σ es key)
    (motive_4 := fun d σ lit fv vs key _ => CallFailInfo mv K mes T d σ lit fv vs key)
    ?_ ?_ ?_ ?_ ?_ ?_ ?_ ?_ ?_ ?_ ?_ ?_ ?_ ?_ ?_ ?_ ?_ ?_ ?_ ?_ ?_ ?_ ?_ ?_ ?_ ?_ h
  · intro d ρ σ x hl; exact ⟨⟨1, fails_var hl⟩, nofun⟩
  · rintro d ρ σ c t e key - ⟨⟨k, h⟩, -⟩
    refine ⟨⟨k, fun W s N hr hw hT hco hs => ?_⟩, nofun⟩
    cases hco with
    | ite hp hh h1 i0 h2 i1 h3 i2 => exact fails_test h hr hw hT hs hp hh h1 i0
  · rintro d ρ σ c t e w σ₁ key hc hw - ⟨⟨k, h⟩, -⟩
    obtain ⟨⟨k1, h1⟩, -⟩ := sim hK hm hc
    exact ⟨⟨_, fails_branch h1 h (.inl ⟨hw, rfl⟩)⟩, nofun⟩
  · rintro d ρ σ c t e σ₁ key hc - ⟨⟨k, h⟩, -⟩
    obtain ⟨⟨k1, h1⟩, -⟩ := sim hK hm hc
    exact ⟨⟨_, fails_branch h1 h (.inr ⟨rfl, rfl⟩)⟩, nofun⟩
  · rintro d ρ σ c t key - ⟨⟨k, h⟩, -⟩
    refine ⟨⟨k, fun W s N hr hw hT hco hs => ?_⟩, nofun⟩
    cases hco with
    | ifOnly hp hh h1 i0 h2 i1 h3 => exact fails_test h hr hw hT hs hp hh h1 i0
  · rintro d ρ σ c t w σ₁ key hc hw - ⟨⟨k, h⟩, -⟩
    obtain ⟨⟨k1, h1⟩, -⟩ := sim hK hm hc
    exact ⟨⟨_, fails_then h1 h hw⟩, nofun⟩
  · rintro d ρ σ f args key - ⟨⟨k, h⟩, -⟩
    exact ⟨⟨k, fails_operator h⟩, nofun⟩
  · rintro d ρ σ f args w σ₀ key h0 - ⟨k, h⟩
    obtain ⟨⟨k1, h1⟩, -⟩ := sim hK hm h0
    exact ⟨⟨_, fails_operands h1 h⟩, nofun⟩
  · rintro d ρ σ f args w vs σ₀ σ₁ key h0 ha hfail ⟨⟨k, h⟩, -⟩
    obtain ⟨⟨k1, h1⟩, -⟩ := sim hK hm h0
    obtain ⟨⟨k2, h2⟩, -⟩ := simArgs hK hm ha
    rcases failsAgain (vs := vs) h with h' | ⟨l, rfl⟩ | h'
    · exact ⟨⟨_, fails_apply h1 h2 h'⟩, nofun⟩
    · cases hfail
    · cases f <;> try exact h'.elim
      cases hfail
  · rintro d ρ σ f args w fv vs σ₀ σ₁ σ₂ key h0 ha hf - h
    obtain ⟨⟨k1, h1⟩, -⟩ := sim hK hm h0
    obtain ⟨⟨k2, h2⟩, -⟩ := simArgs hK hm ha
    obtain ⟨k, h'⟩ := apply_fails (sim hK hm hf) hf h
    exact ⟨⟨_, fails_apply h1 h2 h'⟩, nofun⟩
  · rintro d ρ σ es key - ⟨h1, ⟨k, h2⟩, -⟩
    exact ⟨⟨k, fails_begin h2⟩, fun es' e => by cases e; exact h1⟩
  · rintro d ρ σ x e key - ⟨⟨k, h⟩, -⟩
    exact ⟨⟨k, fails_setValue h⟩, nofun⟩
  · rintro d ρ σ x e v σ' he' hl
    obtain ⟨⟨k1, h1⟩, -⟩ := sim hK hm he'
    exact ⟨⟨_, fails_set h1 hl⟩, nofun⟩
  · rintro d ρ σ e es key - ⟨⟨k, h⟩, -⟩
    exact ⟨k, argsFail_head h⟩
  · rintro d ρ σ e es v σ₁ key he' - ⟨k, h⟩
    obtain ⟨⟨k1, h1⟩, -⟩ := sim hK hm he'
    exact ⟨_, argsFail_tail h1 h⟩
  · rintro d ρ σ e key - h; exact seqFail_one h
  · rintro d ρ σ e es key - hne h; exact seqFail_head h
  · rintro d ρ σ e es w σ₁ key he' - h; exact seqFail_tail (sim hK hm he') h
  · rintro d σ lit v vs h; exact .inl ⟨h, rfl⟩
  · rintro d σ fs b ρ vs lit h hl
    exact .inr ⟨trivial, fun _ => ⟨0, callFails_count h⟩, fun h' fs' r' b' ρ' e => by cases e; exact ⟨_, lamFails_count (hl h')⟩⟩
  · rintro d σ fs b ρ vs lit h hl
    exact .inr ⟨trivial, fun h' => absurd hl h', fun h' fs' r' b' ρ' e => by cases e; exact ⟨_, lamFails_few h⟩⟩
  · rintro d σ lit fs r b ρ vs h
    exact .inr ⟨trivial, fun _ => ⟨_, callFails_few h⟩, fun h' fs' r' b' ρ' e => by cases e; exact ⟨_, lamFails_few h⟩⟩
  · rintro d σ lit fs r b ρ vs ps key hp - ⟨-, ⟨k, h⟩, -⟩
    exact .inr ⟨trivial, fun _ => ⟨_, callFails_body hp h⟩, fun h' fs' r' b' ρ' e => by cases e; exact ⟨_, lamFails_body hp h⟩⟩
  · rintro d σ lit n id vs h hn
    exact .inr ⟨trivial, fun _ => ⟨1, callFails_arity h hn⟩, fun h' fs' r' b' ρ' e => by cases e⟩
  · rintro d σ lit n id vs key h
    obtain ⟨k, hk⟩ := callFails_prim (T := T) hE h fun q => he q _ _ _ _ h
    exact .inr ⟨trivial, fun _ => ⟨k, hk d σ⟩, fun h' fs' r' b' ρ' e => by cases e⟩
  · rintro d σ lit f vs rest key - h
    refine .inr ⟨rfl, fun _ => ?_, fun h' fs' r' b' ρ' e => by cases e⟩
    rcases h with ⟨h, rfl⟩ | ⟨-, h, -⟩
    · exact ⟨_, callFails_apply (callFails_notProc h)⟩
    · obtain ⟨k, h⟩ := h id
      exact ⟨_, callFails_apply h⟩

/-! ### Top level forms -/

/-- Evaluating the top level form raises the error. -/
def TopFails (mv : Prop) (K : Calls) (mes : Bool) (T : Int → Prop) (k d : Nat) (σ : Store) (f : Toplevel) (key : Key) : Prop :=
  ∀ W s N, Ready s k d → World s W mes σ → Strings s W T → IsForm s W mes N s.r1 f → IsScope s W N s.r0 (fun _ => none) →
    (s.cell (s.cell s.r0).car).car ≠ c_closure → FailsAt mv K .eval s key

theorem top_fail (hK : Implements K.builtin mes δ) (hE : Raises K.builtin mes ε)
    (hm : mv → ∀ n id vs v, δ n id vs v → MovesBuiltin K.builtin mes n id vs)
    (he : mv → ∀ n id vs key, ε n id vs key → MovesBuiltin K.builtin mes n id vs) {f : Toplevel} (h : FailForm mes δ ε T d σ f key) :
    ∃ k, TopFails mv K mes T k d σ f key := by
  cases h with
  | expr h =>
    obtain ⟨⟨k, hk⟩, -⟩ := sim_fail hK hE hm he h
    refine ⟨k, fun W s N hr hw hT hc hs _ => ?_⟩
    cases hc with
    | expr hc => exact hk W s N hr hw hT hc hs
  | define h =>
    obtain ⟨⟨k, hk⟩, -⟩ := sim_fail hK hE hm he h
    refine ⟨7 + k, fun W s N hr hw hT hc hs hg y gp mp => ?_⟩
    obtain ⟨W2, s5, c, r2, r, a5, e4, e5, er2, e6, hrp, hwp, he', hsteps⟩ := define_start (mv := mv) (K := K) hr hw hc hs hg
    rcases he' with ⟨⟨fs, r, b, rfl⟩, hc, hfp, henv⟩ | ⟨hc, hsc⟩
    · cases h
    · exact (hsteps y gp mp).falls (hk W2 _ _ hrp hwp ((hT.later a5.later).later ((grow_pushed ..).later W2)) hc hsc _ _ _)

/-! ### Builtins -/

theorem Spec.IsVal.notPair {a : Int} {v : Value} (h : IsVal s W mes a v) (hv : ∀ x y, v ≠ .pair x y) : (s.cell a).tag ≠ .pair := by
  cases h with
  | int h => rw [h.tag]; decide
  | char h => rw [h.tag]; decide
  | pair => exact absurd rfl (hv _ _)
  | obj _ ht => intro h; rw [h] at ht; simp at ht
  | prim h => rw [h.tag]; decide
  | clo _ h => rw [h]; decide

theorem Spec.IsVal.notNumber {a : Int} {v : Value} (h : IsVal s W mes a v) (hv : NotInt v) : (s.cell a).tag ≠ .number := by
  cases h with
  | int => exact absurd rfl (hv _)
  | char h => rw [h.tag]; decide
  | pair h => rw [h.tag]; decide
  | obj _ ht => intro h; rw [h] at ht; simp at ht
  | prim h => rw [h.tag]; decide
  | clo _ h => rw [h]; decide

theorem Spec.IsVal.numberArg {a : Int} {v : Value} (h : IsVal s W mes a v) (hv : NotInt v) : numberArg s a = err .notANumber := by
  simp [Mes.numberArg, St.rd_ok h.valid, h.notNumber hv]

/-- The loop over the arguments finds one that is not a number. -/
theorem foldNumbers_rejects {op : Int → Int → Res Int} {a n m : Int} {ns : List Int} {v : Value} {ws : List Value}
    (h : IsVals s W mes a (ns.map .int ++ v :: ws)) (hv : NotInt v) (hop : foldRes op n ns = ok m) {fuel : Nat} (hf : ns.length < fuel) :
    foldNumbers s op fuel n a = err .notANumber := by
  induction ns generalizing a n fuel with
  | nil =>
    obtain ⟨fuel, rfl⟩ : ∃ f, fuel = f + 1 := ⟨fuel - 1, by simp at hf; omega⟩
    cases h with
    | cons hp hx _ => simp only [foldNumbers, if_neg hp.ne, carP_pair hp.valid hp.tag, ok_bind, hx.numberArg hv, err_bind]
  | cons k ns ih =>
    simp only [List.length_cons] at hf
    obtain ⟨fuel, rfl⟩ : ∃ f, fuel = f + 1 := ⟨fuel - 1, by omega⟩
    cases h with
    | cons hp hx ht =>
      simp only [foldRes] at hop
      cases ho : op n k with
      | ok r =>
        rw [ho, ok_bind] at hop
        simp only [foldNumbers, if_neg hp.ne, carP_pair hp.valid hp.tag, cdrP_pair hp.valid hp.tag, ok_bind, numberArg_ok hx.isInt, ho]
        exact ih ht hop (by omega)
      | _ => rw [ho] at hop; cases hop

/-- The C functions raise the errors that `Rejects` says. -/
theorem raises_builtins : Raises builtins.builtin mes Rejects := by
  intro n id vs key h
  cases h with
  | car hv =>
    refine ⟨.inr ⟨rfl, by simp⟩, 0, fun s W σ us hw hr hp => ⟨0, fun fuel _ => ?_⟩⟩
    obtain ⟨a, rfl, ha⟩ := hp.one
    simp [builtins, function1, same, carP, St.rd_ok ha.valid, ha.notPair hv]
  | cdr hv =>
    refine ⟨.inr ⟨rfl, by simp⟩, 0, fun s W σ us hw hr hp => ⟨0, fun fuel _ => ?_⟩⟩
    obtain ⟨a, rfl, ha⟩ := hp.one
    simp [builtins, function1, same, cdrP, St.rd_ok ha.valid, ha.notPair hv]
  | greater hv =>
    refine ⟨.inl rfl, 0, fun s W σ us hw hr hp => ⟨0, fun fuel _ => ?_⟩⟩
    obtain ⟨a, rfl, ha⟩ := hp.any
    cases ha with
    | cons hp hx _ => simp [builtins, function1, same, greaterP, hp.ne, St.car_ok hp.valid, hx.numberArg hv]
  | less hv =>
    refine ⟨.inl rfl, 0, fun s W σ us hw hr hp => ⟨0, fun fuel _ => ?_⟩⟩
    obtain ⟨a, rfl, ha⟩ := hp.any
    cases ha with
    | cons hp hx _ => simp [builtins, function1, same, lessP, hp.ne, St.car_ok hp.valid, hx.numberArg hv]
  | equal hv =>
    refine ⟨.inl rfl, 0, fun s W σ us hw hr hp => ⟨0, fun fuel _ => ?_⟩⟩
    obtain ⟨a, rfl, ha⟩ := hp.any
    cases ha with
    | cons hp hx _ => simp [builtins, function1, same, isP, hp.ne, St.car_ok hp.valid, hx.numberArg hv]
  | minus hv =>
    refine ⟨.inl rfl, 0, fun s W σ us hw hr hp => ⟨0, fun fuel _ => ?_⟩⟩
    obtain ⟨a, rfl, ha⟩ := hp.any
    cases ha with
    | cons hp hx _ => simp [builtins, function1, minus, St.car_ok hp.valid, hx.numberArg hv]
  | @plus ns v ws h hv =>
    refine ⟨.inl rfl, 0, fun s W σ us hw hr hp => ⟨ns.length + 1, fun fuel hf => ?_⟩⟩
    obtain ⟨a, rfl, ha⟩ := hp.any
    have e := foldRes_add (n := 0) (ns := ns) (fun k => word_inLong.1 (by simpa using h k))
    simp [builtins, function1, plus, foldNumbers_rejects ha hv e hf]
  | @multiply ns v ws h hv =>
    refine ⟨.inl rfl, 0, fun s W σ us hw hr hp => ⟨ns.length + 1, fun fuel hf => ?_⟩⟩
    obtain ⟨a, rfl, ha⟩ := hp.any
    have e := foldRes_mul (n := 1) (ns := ns) (fun k => word_inLong.1 (by simpa [product] using h k))
    simp [builtins, function1, multiply, foldNumbers_rejects ha hv e hf]

end Mes
