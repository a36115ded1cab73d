import Verif.Proof.Freeze
/-
Expanding and evaluating top level forms.
-/
namespace Mes
open Res Spec Gc

variable {s s' : St} {W W' : Ghost} {mes : Bool} {σ σ' : Store} {N : Idents} {ρ : Locals} {K : Calls} {d k : Nat}

theorem Spec.IsTop.bound {c : Int} {f : Toplevel} {L : List Int} (h : IsTop s W mes N c f L) : ∀ a ∈ L, SrcPair s W a := by
  intro a ha
  cases h with
  | expr h => exact h.bound a ha
  | define hc hh h1 hx hi hn hf he =>
    rcases List.mem_cons.1 ha with rfl | ha
    · exact hc
    rcases List.mem_cons.1 ha with rfl | ha
    · exact h1
    rcases he with ⟨_, he⟩ | he
    · exact he.bound a ha
    · exact he.bound a ha
  | function hc hh h1 ht hp hx hi hn hf hs hb hne =>
    rcases List.mem_cons.1 ha with rfl | ha
    · exact hc
    rcases List.mem_cons.1 ha with rfl | ha
    · exact h1
    · exact hb.bound a ha

theorem Spec.IsTop.valid {c : Int} {f : Toplevel} {L : List Int} (h : IsTop s W mes N c f L) : s.Valid c := by
  cases h with
  | expr h => exact h.valid
  | define h | function h => exact h.valid

/-- A form stays when its pairs do. -/
theorem Spec.IsTop.later {c : Int} {f : Toplevel} {L : List Int} (ht : IsTop s W mes N c f L) (h : Later W s W' s')
    (hL : ∀ a ∈ L, W'.src a ∧ s'.cell a = s.cell a) : IsTop s' W' mes N c f L := by
  cases ht with
  | expr he => exact .expr (he.later h hL)
  | define hc hh h1 hx hi hn hf he =>
    obtain ⟨g1, g2⟩ := hL _ (List.mem_cons_self ..)
    obtain ⟨g3, g4⟩ := hL _ (List.mem_cons_of_mem _ (List.mem_cons_self ..))
    have hL' := fun a ha => hL a (List.mem_cons_of_mem _ (List.mem_cons_of_mem _ ha))
    rw [← g2]
    refine .define (hc.later h g1) (by rw [g2]; exact hh) (by rw [g2]; exact h1.later h g3) (by rw [g2, g4]; exact hx) (hi.later h) hn hf ?_
    rw [g2, g4]
    exact he.imp (fun ⟨h1, h2⟩ => ⟨h1, h2.later h hL'⟩) fun h1 => h1.later h hL'
  | function hc hh h1 ht hp hx hi hn hf hs hb hne =>
    obtain ⟨g1, g2⟩ := hL _ (List.mem_cons_self ..)
    obtain ⟨g3, g4⟩ := hL _ (List.mem_cons_of_mem _ (List.mem_cons_self ..))
    rw [← g2]
    refine .function (hc.later h g1) (by rw [g2]; exact hh) (by rw [g2]; exact h1.later h g3) (by rw [g2, g4]; exact ht) (hp.later h)
      (by rw [hp.cell_eq h]; exact hx) (hi.later h) hn hf (by rw [hp.cell_eq h]; exact hs.later h) ?_ hne
    rw [g2, g4]
    exact hb.later h fun a ha => hL a (List.mem_cons_of_mem _ (List.mem_cons_of_mem _ ha))

theorem world_symbol (hw : World s W mes σ) {x : Int} (h : x = c_symbol_define ∨ x = c_symbol_quote ∨ x = c_symbol_lambda) :
    s.Valid x ∧ (s.cell x).tag = .symbol := by
  have hb := hw.base
  rcases h with rfl | rfl | rfl
  all_goals
    refine ⟨⟨by decide, ?_⟩, fixed_tag_symbol hw (by unfold Keyword; decide)⟩
    simp only [c_symbol_define, c_symbol_quote, c_symbol_lambda, c_symbol_max] at *
    omega

/-- The parts of a definition behind the parameters. -/
theorem expand_define {c f : Int} {es : List Expr} {fs L : List Int} {r : Option Int} {N' : Idents} {k : Nat} (hc : SrcPair s W c) (hh : (s.cell c).car = c_symbol_define)
    (h1 : SrcPair s W (s.cell c).cdr) (hf : IsFormals s W.chg f fs r)
    (hff : (if (s.cell (s.cell (s.cell c).cdr).car).tag = .pair then (s.cell (s.cell (s.cell c).cdr).car).cdr else (s.cell (s.cell c).cdr).car) = f)
    (hv : s.Valid (s.cell (s.cell c).cdr).car)
    (hb : IsSources s W mes N' (s.cell (s.cell c).cdr).cdr es L) (hpre : ExpandPre mes σ W s N (c :: (s.cell c).cdr :: L) c_nil [] none k)
    (hk : fs.length + 1 + expandCellsSeq es ≤ k)
    (hN : ∀ x, N' x → N x) (hN' : ∀ x, x ∈ formNames → N' x) (hfree : ∀ x, x ∉ fs ++ r.toList → N'.free x) :
    ∃ F s', (∀ fuel, F ≤ fuel → expandVariable fuel s c c_nil true = ok s') ∧ Expands s (c :: (s.cell c).cdr :: L) s' k ∧
      SrcPair s' W c ∧ SrcPair s' W (s.cell c).cdr ∧ s'.cell c = s.cell c ∧ s'.cell (s.cell c).cdr = s.cell (s.cell c).cdr ∧
      Later W s W s' ∧ IsSources s' W mes N' (s.cell (s.cell c).cdr).cdr es L := by
  have hbs := hb.bound
  obtain ⟨hn1, hnd⟩ := List.nodup_cons.1 hpre.nodup
  obtain ⟨hn2, hnd⟩ := List.nodup_cons.1 hnd
  simp only [List.mem_cons, not_or] at hn1
  have hL2 : ∀ a ∈ L, W.src a ∧ W.cur a := fun a ha => ⟨(hbs a ha).src, hpre.cur a (List.mem_cons_of_mem _ (List.mem_cons_of_mem _ ha))⟩
  obtain ⟨F1, s1, fm1, X1, a1, a2, a3, a4, a5⟩ := addFormals_ok hf hpre.formals hpre.world (hpre.room.mono (by omega))
  have hx0 : Expands s [] s1 (fs.length + 1) := Expands.ext a2 a3
  have hb' := hx0.sources hpre.world nofun hb nofun
  have hpre0 := hpre.next (L2 := L) (k2 := expandCellsSeq es) hx0 nofun a4 (fun x hx => a5 x (.inr hx)) hnd (fun a ha => (hL2 a ha).2) (by omega)
  have hpre' : ExpandPre mes σ W s1 N' L fm1 X1 none (expandCellsSeq es) :=
    { hpre0 with
      env := fun x hx => hpre0.env x (hN x hx)
      free := fun x hx => hfree x fun hc => hx (List.mem_append_left _ (a5 x (.inl hc)))
      forms := fun x hx => ⟨(hpre0.forms x hx).1, hN' x hx, (hpre0.forms x hx).2.2⟩ }
  obtain ⟨F, s', f1, e2, p⟩ := expand_seq hb' hpre'
  have hcell : ∀ a, a < s.free → a ∉ L → s'.cell a = s.cell a := fun a ha hm => by
    rw [e2.frame.same a (by have := a2.le; omega) hm, a2.grow.same a ha]
  have hlat := (a2.grow.later W).trans (e2.later hpre'.world hL2)
  refine ⟨max F F1 + 1, s', fun fuel hfu => ?_, ((hx0.trans e2).mono hk).sub fun a ha => List.mem_cons_of_mem _ (List.mem_cons_of_mem _ ha),
    hc.later hlat hc.src, h1.later hlat h1.src, hcell c hc.valid.2 hn1.2, hcell _ h1.valid.2 hn2, hlat, p⟩
  obtain ⟨fuel, rfl⟩ : ∃ f, fuel = f + 1 := ⟨fuel - 1, by omega⟩
  obtain ⟨v1, v2⟩ := world_symbol hpre.world (x := c_symbol_define) (by simp)
  simp [expandVariable, St.rd_ok hc.valid, hc.tag, hh, St.rd_ok v1, v2, St.car_ok h1.valid, show ¬ (c_symbol_define = c_symbol_lambda) by decide,
    St.rd_ok hv, hff, a1 fuel (by omega), St.cdr_ok (a2.grow.valid h1.valid), a2.grow.same _ h1.valid.2, f1 fuel (by omega)]

/-- Expanding the variables of a form gives the same form. -/
theorem expand_top {c : Int} {f : Toplevel} {L : List Int} (h : IsTop s W mes N c f L)
    (hp : ExpandPre mes σ W s N L c_nil [] none (topCells f)) :
    ∃ F s', (∀ fuel, F ≤ fuel → expandVariable fuel s c c_nil true = ok s') ∧ Expands s L s' (topCells f) ∧ IsTop s' W mes N c f L := by
  cases h with
  | expr h =>
    obtain ⟨F, s', h1, h2, h3⟩ := expand_expr h hp
    exact ⟨F, s', fun fuel hf => h1 fuel hf true, h2, .expr h3⟩
  | @define x e L hc hh h1 hx hi hn hf he =>
    have hfo : IsFormals s W.chg x [] (some x) := .rest hi.text.valid hi.tag hi.fixed
    have hff : (if (s.cell (s.cell (s.cell c).cdr).car).tag = .pair then (s.cell (s.cell (s.cell c).cdr).car).cdr else (s.cell (s.cell c).cdr).car) = x := by
      rw [hx, hi.tag]; rfl
    have hk : ([] : List Int).length + 1 + expandCellsSeq [e] ≤ topCells (.define x e) := by simp [expandCellsSeq, topCells]; omega
    rcases he with ⟨he0, he⟩ | he
    · obtain ⟨F, s', f1, f2, f3, f4, f5, f6, f7, f8⟩ := expand_define hc hh h1 hfo hff (by rw [hx]; exact hi.text.valid) he hp hk (fun _ h => h)
        (fun x hx => (hp.forms x hx).2.1) (fun x _ => hp.free x (by simp))
      refine ⟨F, s', f1, f2, ?_⟩
      rw [← f5]
      exact .define f3 (by rw [f5]; exact hh) (by rw [f5]; exact f4) (by rw [f5, f6]; exact hx) (hi.later f7) hn hf (.inl ⟨he0, by rw [f5, f6]; exact f8⟩)
    · obtain ⟨F, s', f1, f2, f3, f4, f5, f6, f7, f8⟩ := expand_define hc hh h1 hfo hff (by rw [hx]; exact hi.text.valid) he hp hk (fun _ h => h.1)
        (fun y hy => ⟨(hp.forms y hy).2.1, fun e => hf (e ▸ hy)⟩) (fun x _ => hp.free x (by simp))
      refine ⟨F, s', f1, f2, ?_⟩
      rw [← f5]
      exact .define f3 (by rw [f5]; exact hh) (by rw [f5]; exact f4) (by rw [f5, f6]; exact hx) (hi.later f7) hn hf (.inr (by rw [f5, f6]; exact f8))
  | @function t f fs r b L hc hh h1 ht hpt hx hi hn hf hs hb hne =>
    have hff : (if (s.cell (s.cell (s.cell c).cdr).car).tag = .pair then (s.cell (s.cell (s.cell c).cdr).car).cdr else (s.cell (s.cell c).cdr).car) = (s.cell t).cdr := by
      rw [ht, hpt.tag]; rfl
    obtain ⟨F, s', f1, f2, f3, f4, f5, f6, f7, f8⟩ := expand_define hc hh h1 hs hff (by rw [ht]; exact hpt.valid) hb hp
      (by simp [topCells, extraCells, expandCells]) (fun _ h => h) (fun x hx => (hp.forms x hx).2.1) (fun x hx => ⟨hp.free x (by simp), hx⟩)
    refine ⟨F, s', f1, f2, ?_⟩
    rw [← f5]
    exact .function f3 (by rw [f5]; exact hh) (by rw [f5]; exact f4) (by rw [f5, f6]; exact ht) (hpt.later f7) (by rw [hpt.cell_eq f7]; exact hx) (hi.later f7) hn hf
      (by rw [hpt.cell_eq f7]; exact hs.later f7) (by rw [f5, f6]; exact f8) hne

/-! ### Evaluating definitions of procedures -/

/-- `pairlis` of a parameter list with itself: entries for the parameters only. -/
theorem pairlis_self {s0 : St} {f a : Int} {fs : List Int} {r : Option Int} (hf : IsFormals s0 W.chg f fs r) (hw : World s0 W mes σ)
    (h0 : Grow s0 s) (hr : Room s (2 * (fs.length + 1))) :
    ∃ F p s', (∀ fuel, F ≤ fuel → pairlis fuel s f f a = ok (p, s')) ∧ Ext s s' ∧ s'.free ≤ s.free + (2 * (fs.length + 1) : Nat) ∧
      ∀ x o, x ∉ fs ++ r.toList → Assq s W x a o → Assq s' W x p o := by
  have hle := h0.le
  have hnew : ∀ (t : St) (p : Int), s0.free ≤ p → p < t.free → (t.cell p).tag = .pair → FixedPair t W.chg p ∧ ¬ W.src p := fun t p h1 h2 h3 =>
    ⟨fresh_pair hw h1 h2 h3, fun hc => by have := hw.below p (hw.source p hc); omega⟩
  induction hf generalizing s with
  | nil =>
    refine ⟨1, a, s, fun fuel hfu => ?_, Frame.refl .., by omega, fun _ _ _ h => h⟩
    obtain ⟨fuel, rfl⟩ : ∃ f, fuel = f + 1 := ⟨fuel - 1, by omega⟩
    simp [pairlis]
  | @rest x hv ht hm =>
    have hne : x ≠ c_nil := by rintro rfl; rw [(World.nil hw).2] at ht; cases ht
    have ht := h0.same _ hv.2 ▸ ht
    have hv := h0.valid hv
    have e1 := push_ext s { tag := .pair, car := x, cdr := x }
    have c1 : (s.push { tag := .pair, car := x, cdr := x }).cell s.free = { tag := .pair, car := x, cdr := x } := by simp
    have f1 : (s.push { tag := .pair, car := x, cdr := x }).free = s.free + 1 := by simp
    have k1 := cons_ok (hr.mono (by simp)) x x
    have r1 : Room (s.push { tag := .pair, car := x, cdr := x }) 1 := hr.step e1 (by simp; omega)
    generalize s.push { tag := .pair, car := x, cdr := x } = s1 at *
    have e2 := push_ext s1 { tag := .pair, car := s.free, cdr := a }
    have c2 : (s1.push { tag := .pair, car := s.free, cdr := a }).cell s1.free = { tag := .pair, car := s.free, cdr := a } := by simp
    have f2 : (s1.push { tag := .pair, car := s.free, cdr := a }).free = s1.free + 1 := by simp
    have k2 := cons_ok r1 s.free a
    generalize s1.push { tag := .pair, car := s.free, cdr := a } = s2 at *
    refine ⟨1, s1.free, s2, fun fuel hfu => ?_, e1.trans e2, by simp; omega, fun y o hy h => ?_⟩
    · obtain ⟨fuel, rfl⟩ : ∃ f, fuel = f + 1 := ⟨fuel - 1, by omega⟩
      simp only [pairlis, if_neg hne, St.rd_ok hv, ok_bind, ht, k1, k2]
      simp
    · have h1 : s2.cell s.free = { tag := .pair, car := x, cdr := x } := by rw [e2.grow.same _ (by omega), c1]
      obtain ⟨q1, q2⟩ := hnew s2 s1.free (by omega) (by omega) (by rw [c2])
      obtain ⟨q3, q4⟩ := hnew s2 s.free (by omega) (by omega) (by rw [h1])
      refine .next q1 (by rw [c2]; exact q3.valid) (by rw [c2]; exact q3.tag) (by rw [c2]; exact q4) ?_ ?_
      · rw [c2]; simp only; rw [h1]; rintro rfl; simp at hy
      · rw [c2]; exact (h.later (e1.grow.later W)).later (e2.grow.later W)
  | @cons p xs r hp hv hx _ ih =>
    have ep := h0.same _ hp.valid.2
    simp only [List.length_cons] at hr
    have e1 := push_ext s { tag := .pair, car := (s0.cell p).car, cdr := (s0.cell p).car }
    have c1 : (s.push { tag := .pair, car := (s0.cell p).car, cdr := (s0.cell p).car }).cell s.free = { tag := .pair, car := (s0.cell p).car, cdr := (s0.cell p).car } := by simp
    have f1 : (s.push { tag := .pair, car := (s0.cell p).car, cdr := (s0.cell p).car }).free = s.free + 1 := by simp
    have k1 := cons_ok (hr.mono (by omega)) (s0.cell p).car (s0.cell p).car
    have r1 : Room (s.push { tag := .pair, car := (s0.cell p).car, cdr := (s0.cell p).car }) (2 * (xs.length + 1) + 1) := hr.step e1 (by simp; omega)
    generalize s.push { tag := .pair, car := (s0.cell p).car, cdr := (s0.cell p).car } = s1 at *
    obtain ⟨F, q, s2, g1, g2, g3, g4⟩ := ih (h0.trans e1.grow) (r1.mono (by omega)) (by omega)
    have r2 : Room s2 1 := r1.step g2 (by omega)
    have e3 := push_ext s2 { tag := .pair, car := s.free, cdr := q }
    have c3 : (s2.push { tag := .pair, car := s.free, cdr := q }).cell s2.free = { tag := .pair, car := s.free, cdr := q } := by simp
    have f3 : (s2.push { tag := .pair, car := s.free, cdr := q }).free = s2.free + 1 := by simp
    have k3 := cons_ok r2 s.free q
    have hge := g2.grow.le
    generalize s2.push { tag := .pair, car := s.free, cdr := q } = s3 at *
    refine ⟨F + 1, s2.free, s3, fun fuel hfu => ?_, e1.trans (g2.trans e3), by simp only [List.length_cons]; omega, fun y o hy h => ?_⟩
    · obtain ⟨fuel, rfl⟩ : ∃ f, fuel = f + 1 := ⟨fuel - 1, by omega⟩
      have hv1 := h0.valid hp.valid
      have hv2 := e1.grow.valid hv1
      have ep1 := e1.grow.same _ hv1.2
      simp only [pairlis, if_neg hp.ne, St.rd_ok hv1, ok_bind, ep, hp.tag, ne_eq, not_true, if_false, carP, k1, cdrP, St.rd_ok hv2, ep1,
        g1 fuel (by omega), k3]
    · have h1 : s3.cell s.free = { tag := .pair, car := (s0.cell p).car, cdr := (s0.cell p).car } := by
        rw [e3.grow.same _ (by omega), g2.grow.same _ (by omega), c1]
      obtain ⟨q1, q2⟩ := hnew s3 s2.free (by omega) (by omega) (by rw [c3])
      obtain ⟨q3, q4⟩ := hnew s3 s.free (by omega) (by omega) (by rw [h1])
      simp only [List.cons_append, List.mem_cons, not_or] at hy
      refine .next q1 (by rw [c3]; exact q3.valid) (by rw [c3]; exact q3.tag) (by rw [c3]; exact q4) ?_ ?_
      · rw [c3]; simp only; rw [h1]; exact Ne.symm hy.1
      · rw [c3]; exact (g4 y o hy.2 (h.later (e1.grow.later W))).later (e3.grow.later W)

/-- What loading a form that consists of the pairs `L` needs. -/
structure LoadPre (mes : Bool) (σ : Store) (W : Ghost) (s : St) (N : Idents) (L : List Int) : Prop where
  world : World s W mes σ
  scope : IsScope s W N s.r0 fun _ => none
  key : (s.cell (s.cell s.r0).car).car ≠ c_closure
  free : ∀ x, N.free x
  forms : ∀ x ∈ formNames, IsName s W x ∧ N x ∧ σ.globals x = none
  nodup : L.Nodup
  cur : ∀ a ∈ L, W.cur a

theorem declare_globals {σ : Store} {x y : Int} (h : y ≠ x) : (σ.declare x).2.globals y = σ.globals y := by
  unfold Store.declare
  cases hx : σ.globals x with
  | some l => rfl
  | none => simp [h]

theorem know_adv {g : Int → Option Nat} (W : Ghost) (s : St) (hg : ∀ x l, W.glob x = some l → g x = some l) : Adv W s (W.know g) s 0 :=
  ⟨.refl s, know_later W s hg, by omega⟩

theorem take_adv {L : List Int} (W : Ghost) (s : St) (hL : ∀ a ∈ L, W.src a ∧ W.cur a) : Adv W s (W.take L) s 0 :=
  ⟨.refl s, take_later W s hL, by omega⟩

theorem Spec.Expands.adv {L : List Int} {k : Nat} (h : Expands s L s' k) (hw : World s W mes σ) (hL : ∀ a ∈ L, W.src a ∧ W.cur a) : Adv W s W s' k :=
  ⟨h.frame.keeps, h.later hw hL, h.free⟩

/-- The number of cells for the definition of a procedure, before its value is stored. -/
def functionCells (fs : List Int) (b : List Expr) : Nat := 5 + 2 * (fs.length + 2) + expandCellsSeq b + 2

/-- The steps of `(define (f . formals) body …)` before the lambda expression is evaluated. -/
theorem function_start {c t f : Int} {fs : List Int} {r : Option Int} {b : List Expr} {L : List Int} (hr : Ready s (functionCells fs b + k) (d + 1))
    (hp : LoadPre mes σ W s N (c :: (s.cell c).cdr :: L)) (hc1 : s.r1 = c) (hc : SrcPair s W c)
    (hh : (s.cell c).car = c_symbol_define) (h1 : SrcPair s W (s.cell c).cdr) (ht : (s.cell (s.cell c).cdr).car = t)
    (hpt : FixedPair s W.chg t) (hx : (s.cell t).car = f) (hi : IsName s W f) (hn : N f) (hf : f ∉ formNames)
    (hs : IsFormals s W.chg (s.cell t).cdr fs r) (hb : IsSources s W mes (N.under fs r) (s.cell (s.cell c).cdr).cdr b L) (hne : b ≠ []) :
    ∃ W2 s5 l p, Adv W s W2 s5 (functionCells fs b) ∧ s5.r0 = s.r0 ∧ s5.r2 = c ∧ (σ.declare f).2.globals f = some (σ.declare f).1 ∧
      Ready (s5.pushed l c p c_vm_eval_define) k d ∧ World (s5.pushed l c p c_vm_eval_define) W2 mes (σ.declare f).2 ∧
      IsCode (s5.pushed l c p c_vm_eval_define) W2 mes N l (.lam fs r b) ∧
      FixedPair (s5.pushed l c p c_vm_eval_define) W2.chg p ∧
      IsEnv (s5.pushed l c p c_vm_eval_define) W2 (N.except (fs ++ r.toList)) (s5.cell p).cdr (fun _ => none) ∧
      FixedPair s5 W2.chg c ∧ FixedPair s5 W2.chg (s.cell c).cdr ∧ s5.cell c = s.cell c ∧ s5.cell (s.cell c).cdr = s.cell (s.cell c).cdr ∧
      ∀ y gp mp, Walk False K ⟨.eval, s, y, gp, mp⟩ ⟨.eval, s5.pushed l c p c_vm_eval_define, y, some true, some false⟩ := by
  have hkk : functionCells fs b = 5 + 2 * (fs.length + 2) + expandCellsSeq b + 2 := rfl
  have hw := hp.world
  have hbd := hb.bound
  have hbase := hw.base
  simp only [c_symbol_max] at hbase
  obtain ⟨hnd1, hnd⟩ := List.nodup_cons.1 hp.nodup
  obtain ⟨hnd2, hnd⟩ := List.nodup_cons.1 hnd
  simp only [List.mem_cons, not_or] at hnd1
  have hLs : ∀ a ∈ c :: (s.cell c).cdr :: L, SrcPair s W a := fun a ha => by
    rcases List.mem_cons.1 ha with rfl | ha
    · exact hc
    rcases List.mem_cons.1 ha with rfl | ha
    · exact h1
    · exact hbd a ha
  have hLsc : ∀ a ∈ c :: (s.cell c).cdr :: L, W.src a ∧ W.cur a := fun a ha => ⟨(hLs a ha).src, hp.cur a ha⟩
  -- the variable
  obtain ⟨F, entry, s0, s2, W2, e0, e1, e2, e3, e4, e5, e6, e7, e8, e9⟩ := declare_ok hw hi hn hp.scope (hr.mono (k' := 5) (by omega) (Nat.le_refl _))
  have hal := alike_r2 s2 s2.r1
  have a2 := e2.trans (hal.adv W2)
  have g0 : ({ s2 with r2 := s2.r1 } : St).r2 = c := by rw [← hc1]; exact e5
  have g1 : ({ s2 with r2 := s2.r1 } : St).r0 = s.r0 := e4
  have g2 : ∀ a, W.src a → a < s.free → ({ s2 with r2 := s2.r1 } : St).cell a = s.cell a := e9
  have hw2 := hal.world e3
  generalize hs3 : { s2 with r2 := s2.r1 } = s3 at *
  -- the entries
  have l3 := a2.later
  have hr3 := hr.adv (k' := 2 * (fs.length + 2) + expandCellsSeq b + 2 + k) a2 (by omega)
  have hpt3 := hpt.later l3
  have hct3 := hpt.cell_eq l3
  have hs3' := hs.later l3
  have q1 := push_ext s3 { tag := .pair, car := f, cdr := f }
  have q2 : (s3.push { tag := .pair, car := f, cdr := f }).cell s3.free = { tag := .pair, car := f, cdr := f } := by simp
  have q3 : (s3.push { tag := .pair, car := f, cdr := f }).free = s3.free + 1 := by simp
  have q4 := cons_ok (hr3.room.mono (by omega)) f f
  generalize hsa : s3.push { tag := .pair, car := f, cdr := f } = sa at *
  have aa := a2.trans (q1.adv (j := 1) (by omega) W2)
  have hra := hr.adv (k' := 2 * (fs.length + 1) + 1 + expandCellsSeq b + 2 + k) aa (by omega)
  obtain ⟨F2, pa, sb, b1, b2, b3, b4⟩ := pairlis_self (a := s.r0) hs3' hw2 q1.grow (hra.room.mono (by omega))
  have ab := aa.trans (b2.adv (j := 2 * (fs.length + 1)) (by omega) W2)
  have hrb := hr.adv (k' := 1 + expandCellsSeq b + 2 + k) ab (by omega)
  have hbge := b2.grow.le
  have u1 := push_ext sb { tag := .pair, car := s3.free, cdr := pa }
  have u2 : (sb.push { tag := .pair, car := s3.free, cdr := pa }).cell sb.free = { tag := .pair, car := s3.free, cdr := pa } := by simp
  have u3 : (sb.push { tag := .pair, car := s3.free, cdr := pa }).free = sb.free + 1 := by simp
  have u4 := cons_ok (hrb.room.mono (by omega)) s3.free pa
  generalize hsc : sb.push { tag := .pair, car := s3.free, cdr := pa } = sc at *
  have ac := ab.trans (u1.adv (j := 1) (by omega) W2)
  have x3c : Ext s3 sc := q1.trans (b2.trans u1)
  have hwc := x3c.world hw2
  have hcells : ∀ a, W.src a → a < s.free → sc.cell a = s.cell a := fun a h1 h2 => by
    rw [x3c.grow.same a (by have := a2.later.le; omega), g2 a h1 h2]
  -- the global variables
  have ad := ac.trans (know_adv W2 sc hwc.glob)
  have hwd := know_world hwc
  generalize hW3 : W2.know (σ.declare f).2.globals = W3 at *
  have hsrc3 : W3.src = W.src := by rw [← hW3]; exact e7
  have hcur3 : W3.cur = W.cur := by rw [← hW3]; exact e8
  have hr0 : sc.r0 = s.r0 := by rw [x3c.r0, g1]
  have hr2 : sc.r2 = c := by rw [x3c.r2, g0]
  have hLc : ∀ a ∈ c :: (s.cell c).cdr :: L, W3.src a ∧ sc.cell a = s.cell a := fun a ha =>
    ⟨by rw [hsrc3]; exact (hLs a ha).src, hcells a (hLs a ha).src (hLs a ha).valid.2⟩
  have hbc := hb.later ad.later fun a ha => hLc a (List.mem_cons_of_mem _ (List.mem_cons_of_mem _ ha))
  have hrd := hr.adv (k' := expandCellsSeq b + 2 + k) ad (by omega)
  have hpre : ExpandPre mes (σ.declare f).2 W3 sc (N.under fs r) L (s.cell t).cdr fs r (expandCellsSeq b) :=
    { world := hwd
      glob := by rw [← hW3]; rfl
      env := by rw [hr0]; exact hp.scope.whole.later ad.later
      formals := hs.later ad.later
      free := fun x hx => ⟨hp.free x, hx⟩
      forms := fun x hx => ⟨(hp.forms x hx).1.later ad.later, (hp.forms x hx).2.1, by
        rw [declare_globals fun e => by rw [e] at hx; exact hf hx]; exact (hp.forms x hx).2.2⟩
      nodup := hnd
      cur := fun a ha => by rw [hcur3]; exact (hLsc a (List.mem_cons_of_mem _ (List.mem_cons_of_mem _ ha))).2
      room := hrd.room.mono (by omega) }
  have hsc3 : ∀ a ∈ c :: (s.cell c).cdr :: L, W3.src a ∧ W3.cur a := fun a ha => by rw [hsrc3, hcur3]; exact hLsc a ha
  obtain ⟨F3, sd, f1, f2, f3⟩ := expand_seq hbc hpre
  have ae := ad.trans (f2.adv hwd fun a ha => hsc3 a (List.mem_cons_of_mem _ (List.mem_cons_of_mem _ ha)))
  have hwe := f2.world hwd (fun a ha => hsc3 a (List.mem_cons_of_mem _ (List.mem_cons_of_mem _ ha))) fun a ha => by
    have := hLs a (List.mem_cons_of_mem _ (List.mem_cons_of_mem _ ha))
    rw [hcells a this.src this.valid.2]; exact this.tag
  -- the body is fixed
  have tl := take_later W3 sd hsc3
  have af := ae.trans (take_adv W3 sd hsc3)
  have hwf := take_world hwe hsc3
  have hseq := f3.take tl fun a ha => List.mem_cons_of_mem _ (List.mem_cons_of_mem _ ha)
  have hcellc : sd.cell c = s.cell c := by
    rw [f2.frame.same c (ad.later.valid hc.valid).2 hnd1.2, (hLc c (List.mem_cons_self ..)).2]
  have hcelld : sd.cell (s.cell c).cdr = s.cell (s.cell c).cdr := by
    rw [f2.frame.same _ (ad.later.valid h1.valid).2 hnd2, (hLc _ (List.mem_cons_of_mem _ (List.mem_cons_self ..))).2]
  have hcp : FixedPair sd (W3.take (c :: (s.cell c).cdr :: L)).chg c :=
    (hc.later ae.later (hsc3 c (List.mem_cons_self ..)).1).take (List.mem_cons_self ..)
  have hdp : FixedPair sd (W3.take (c :: (s.cell c).cdr :: L)).chg (s.cell c).cdr :=
    (h1.later ae.later (hsc3 _ (List.mem_cons_of_mem _ (List.mem_cons_self ..))).1).take (List.mem_cons_of_mem _ (List.mem_cons_self ..))
  generalize hW4 : W3.take (c :: (s.cell c).cdr :: L) = W4 at *
  have hre := hr.adv (k' := 2 + k) af (by omega)
  have hr0d : sd.r0 = s.r0 := by rw [f2.frame.r0, hr0]
  have hr2d : sd.r2 = c := by rw [f2.frame.r2, hr2]
  -- the lambda expression
  have v1 := push_ext sd { tag := .pair, car := (s.cell t).cdr, cdr := (s.cell (s.cell c).cdr).cdr }
  have v2 : (sd.push { tag := .pair, car := (s.cell t).cdr, cdr := (s.cell (s.cell c).cdr).cdr }).cell sd.free =
    { tag := .pair, car := (s.cell t).cdr, cdr := (s.cell (s.cell c).cdr).cdr } := by simp
  have v3 : (sd.push { tag := .pair, car := (s.cell t).cdr, cdr := (s.cell (s.cell c).cdr).cdr }).free = sd.free + 1 := by simp
  have v4 := cons_ok (hre.room.mono (by omega)) (s.cell t).cdr (s.cell (s.cell c).cdr).cdr
  generalize hse : sd.push { tag := .pair, car := (s.cell t).cdr, cdr := (s.cell (s.cell c).cdr).cdr } = se at *
  have ag := af.trans (v1.adv (j := 1) (by omega) W4)
  have hrf := hr.adv (k' := 1 + k) ag (by omega)
  have w1 := push_ext se { tag := .pair, car := c_symbol_lambda, cdr := sd.free }
  have w2 : (se.push { tag := .pair, car := c_symbol_lambda, cdr := sd.free }).cell se.free = { tag := .pair, car := c_symbol_lambda, cdr := sd.free } := by simp
  have w3 : (se.push { tag := .pair, car := c_symbol_lambda, cdr := sd.free }).free = se.free + 1 := by simp
  have w4 := cons_ok (hrf.room.mono (by omega)) c_symbol_lambda sd.free
  generalize hsg : se.push { tag := .pair, car := c_symbol_lambda, cdr := sd.free } = sg at *
  have ah := ag.trans (w1.adv (j := 1) (by omega) W4)
  have hrg := hr.adv (k' := k) ah (by omega)
  have xdg : Ext sd sg := v1.trans w1
  have ai := ah.trans ((alike_r1 sg se.free).adv W4)
  have hri := hr.adv (k' := k) ai (by omega)
  have hwi := (alike_r1 sg se.free).world (xdg.world hwf)
  have hcellg : sg.cell sd.free = { tag := .pair, car := (s.cell t).cdr, cdr := (s.cell (s.cell c).cdr).cdr } := by
    rw [w1.grow.same _ (by omega), v2]
  have hgp := grow_pushed { sg with r1 := se.free } se.free c sb.free c_vm_eval_define
  have gdg := xdg.grow.trans (Grow.trans (s' := { sg with r1 := se.free }) ⟨by show sg.free ≤ sg.free; omega, fun _ _ => rfl⟩ hgp)
  have ldg := gdg.later W4
  have hscd : sc.free ≤ sd.free := f2.le
  have gs3 : s.free ≤ s3.free := a2.later.le
  -- the entry of the procedure itself
  have hsb : sd.cell sb.free = { tag := .pair, car := s3.free, cdr := pa } := by
    rw [f2.frame.same _ (by omega), u2]
    intro hc
    have := (hbd _ hc).valid.2
    omega
  have hsb' : sg.cell sb.free = { tag := .pair, car := s3.free, cdr := pa } := by rw [xdg.grow.same _ (by omega), hsb]
  refine ⟨W4, { sg with r1 := se.free }, se.free, sb.free, ?_, ?_, ?_, e6, ?_, hwi.grow hgp rfl, ?_, ?_, ?_, ?_, ?_, ?_, ?_, fun y gp mp => ?_⟩
  · refine ⟨ai.keeps, ai.later, ?_⟩
    have := ai.free
    omega
  · show sg.r0 = s.r0
    rw [xdg.r0, hr0d]
  · show sg.r2 = c
    rw [xdg.r2, hr2d]
  · exact hri.pushed ..
  · have p1 : FixedPair (({ sg with r1 := se.free } : St).pushed se.free c sb.free c_vm_eval_define) W4.chg se.free :=
      fresh_pair (s := sd) (s' := St.pushed _ _ _ _ _) hwf (by omega) (by show se.free < sg.free; omega) (by show (sg.cell _).tag = _; rw [w2])
    have p2 : FixedPair (({ sg with r1 := se.free } : St).pushed se.free c sb.free c_vm_eval_define) W4.chg sd.free :=
      fresh_pair (s := sd) (s' := St.pushed _ _ _ _ _) hwf (by omega) (by show sd.free < sg.free; omega) (by show (sg.cell _).tag = _; rw [hcellg])
    refine .lam p1 (by show (sg.cell _).car = _; rw [w2]) (by show FixedPair _ _ (sg.cell _).cdr; rw [w2]; exact p2) ?_ ?_ hne
    · show IsFormals _ _ (sg.cell (sg.cell _).cdr).car _ _
      rw [w2]; show IsFormals _ _ (sg.cell sd.free).car _ _
      rw [hcellg]
      exact hs.later (af.later.trans ldg)
    · show IsSeq _ _ _ _ (sg.cell (sg.cell _).cdr).cdr _
      rw [w2]; show IsSeq _ _ _ _ (sg.cell sd.free).cdr _
      rw [hcellg]
      exact hseq.later ldg
  · have hnw : ¬ W4.chg sb.free := fun hc => by
      have := ae.later
      rw [← hW4] at hc
      have hc2 : W3.chg sb.free := hc.1
      rw [← hW3] at hc2
      have := hw2.below _ (show W2.chg sb.free from hc2)
      omega
    exact ⟨by simp only [c_nil]; omega, ⟨by omega, by show sb.free < sg.free; omega⟩, by show (sg.cell _).tag = _; rw [hsb'], hnw⟩
  · show IsEnv _ _ _ (sg.cell sb.free).cdr _
    rw [hsb']
    intro x hx
    refine ⟨?_, nofun⟩
    have hs0 := (hp.scope.whole.later aa.later x hx.1).1
    have hs1 := b4 x _ hx.2 hs0
    have lbd : Later W2 sb W4 sd := by
      rw [← hW4]
      refine Later.trans ?_ (take_later W3 sd hsc3)
      refine Later.trans ?_ (f2.later hwd fun a ha => hsc3 a (List.mem_cons_of_mem _ (List.mem_cons_of_mem _ ha)))
      rw [← hW3]
      exact (u1.grow.later W2).trans (know_later W2 sc hwc.glob)
    exact (hs1.later lbd).later ldg
  · exact hcp.later ((xdg.grow.later W4).trans ((alike_r1 sg se.free).adv W4).later)
  · exact hdp.later ((xdg.grow.later W4).trans ((alike_r1 sg se.free).adv W4).later)
  · show sg.cell c = _
    rw [xdg.grow.same _ (ae.later.valid hc.valid).2, hcellc]
  · show sg.cell _ = _
    rw [xdg.grow.same _ (ae.later.valid h1.valid).2, hcelld]
  · refine .fuel (fun q => q.elim) (F + F2 + F3 + 1) fun fuel hfu => ?_
    have hd : evalDefineForm s fuel false = ok (true, ({ sg with r1 := se.free } : St).pushed se.free c sb.free c_vm_eval_define) := by
      have hpair : pairlis fuel s3 t t s.r0 = ok (sb.free, sc) := by
        obtain ⟨fuel, rfl⟩ : ∃ f, fuel = f + 1 := ⟨fuel - 1, by omega⟩
        have hta := (q1.grow.valid hpt3.valid)
        have hca := (q1.grow.same _ hpt3.valid.2)
        simp only [pairlis, if_neg hpt3.ne, St.rd_ok hpt3.valid, ok_bind, hct3, hpt.tag, ne_eq, not_true, if_false, carP, hx, q4, cdrP, St.rd_ok hta, hca,
          b1 fuel (by omega), u4]
      simp only [evalDefineForm, St.car_ok hp.scope.pair.valid, St.car_ok hp.scope.valid, hc1, St.cdr_ok hc.valid, St.car_ok h1.valid, ok_bind, ht,
        St.rd_ok hpt.valid, hpt.tag, hx, ↓reduceIte, ne_eq, hp.key, not_false_eq_true, decide_true, Bool.false_eq_true, not_true, or_true]
      rw [e0 fuel (by omega)]
      have t1 := x3c.grow.valid hpt3.valid
      have t2 := x3c.grow.same _ hpt3.valid.2
      have t3 := (hLc _ (List.mem_cons_of_mem _ (List.mem_cons_self ..))).2
      have t4 := ac.later.valid h1.valid
      have t5 : pushCc { sg with r1 := se.free } se.free sg.r2 sb.free c_vm_eval_define = _ := hri.pushCc se.free sg.r2 sb.free c_vm_eval_define
      have t6 : sg.r2 = c := by rw [xdg.r2, hr2d]
      have t7 := congrArg (fun z => ok (true, ({ sg with r1 := se.free } : St).pushed se.free z sb.free c_vm_eval_define)) t6
      have hrest : ∀ z : St, z = s3 → (do
          let x ← pairlis fuel z t t z.r0
          let formals ← x.2.cdr t
          let body ← x.2.cdr (s.cell c).cdr
          let y ← expandVariable fuel x.2 body formals true
          let q ← cons y formals body
          let l ← cons q.2 c_symbol_lambda q.1
          let w ← pushCc { l.2 with r1 := l.1 } l.1 l.2.r2 x.1 c_vm_eval_define
          ok (true, w)) = ok (true, ({ sg with r1 := se.free } : St).pushed se.free sg.r2 sb.free c_vm_eval_define) := by
        rintro z rfl
        simp only [ok_bind, g1, hpair, St.cdr_ok t1, t2, hct3, St.cdr_ok t4, t3, f1 fuel (by omega), v4, w4, t5]
      rcases e1 with ⟨rfl, e1⟩ | ⟨e1, rfl⟩
      · simp only [ok_bind, ↓reduceIte, e1]
        exact (hrest _ hs3).trans t7
      simp only [ok_bind, if_neg e1]
      exact (hrest _ hs3).trans t7
    have d1 : ¬ (c_symbol_define = c_symbol_define_macro) := by decide
    simp only [step, hc1, St.rd_ok hc.valid, ok_bind, hc.tag, hh]
    simp only [show decide (c_symbol_define = c_symbol_define_macro) = false by decide, hd, ok_bind]
    rfl

/-- The machine evaluates a form whose variables may be expanded. -/
def SourceOk (K : Calls) (mes : Bool) (k d : Nat) (σ : Store) (f : Toplevel) (v : Value) (σ' : Store) : Prop :=
  ∀ W s N L, Ready s k d → LoadPre mes σ W s N L → IsTop s W mes N s.r1 f L → ∀ x gp mp, ∃ W' s' x' gp' mp',
    Walk False K ⟨.eval, s, x, gp, mp⟩ ⟨.dispatch, s', x', gp', mp'⟩ ∧ Popped s s' ∧ Later W s W' s' ∧ World s' W' mes σ' ∧
    s'.free ≤ s.free + k ∧ IsVal s' W' mes s'.r1 v

/-- Expanded forms are code. -/
theorem Spec.IsTop.take {c : Int} {f : Toplevel} {L : List Int} (h : IsTop s W mes N c f L) (hL : ∀ a ∈ L, W.src a ∧ W.cur a) :
    IsForm s (W.take L) mes N c f ∨ ∃ t g fs r b L', f = .define g (.lam fs r b) ∧ L = c :: (s.cell c).cdr :: L' ∧ SrcPair s W c ∧
      (s.cell c).car = c_symbol_define ∧ SrcPair s W (s.cell c).cdr ∧ (s.cell (s.cell c).cdr).car = t ∧ FixedPair s W.chg t ∧
      (s.cell t).car = g ∧ IsName s W g ∧ N g ∧ g ∉ formNames ∧ IsFormals s W.chg (s.cell t).cdr fs r ∧
      IsSources s W mes (N.under fs r) (s.cell (s.cell c).cdr).cdr b L' ∧ b ≠ [] := by
  have hl := take_later W s hL
  cases h with
  | expr h => exact .inl (.expr (h.take hl fun _ h => h))
  | @define x e L hc hh h1 hx hi hn hf he =>
    have hi' := hi.later hl
    have hsub : ∀ a ∈ L, a ∈ c :: (s.cell c).cdr :: L := fun a ha => List.mem_cons_of_mem _ (List.mem_cons_of_mem _ ha)
    left
    refine .define (hc.take (List.mem_cons_self ..)) hh (h1.take (List.mem_cons_of_mem _ (List.mem_cons_self ..))) hx hi' hn ?_ ?_
    · rcases he with ⟨_, he⟩ | he
      · exact (he.take hl hsub).elem.1
      · exact (he.take hl hsub).elem.1
    · rcases he with ⟨h0, he⟩ | he
      · exact .inl ⟨h0, (he.take hl hsub).elem.2.1⟩
      · exact .inr (he.take hl hsub).elem.2.1
  | @function t g fs r b L hc hh h1 ht hp hx hi hn hf hs hb hne =>
    exact .inr ⟨t, g, fs, r, b, L, rfl, rfl, hc, hh, h1, ht, hp, hx, hi, hn, hf, hs, hb, hne⟩

theorem function_ok {c t f : Int} {fs : List Int} {r : Option Int} {b : List Expr} {L : List Int} (hr : Ready s (functionCells fs b + 5) (d + 1))
    (hp : LoadPre mes σ W s N (c :: (s.cell c).cdr :: L)) (hc1 : s.r1 = c) (hc : SrcPair s W c)
    (hh : (s.cell c).car = c_symbol_define) (h1 : SrcPair s W (s.cell c).cdr) (ht : (s.cell (s.cell c).cdr).car = t)
    (hpt : FixedPair s W.chg t) (hx : (s.cell t).car = f) (hi : IsName s W f) (hn : N f) (hf : f ∉ formNames)
    (hs : IsFormals s W.chg (s.cell t).cdr fs r) (hb : IsSources s W mes (N.under fs r) (s.cell (s.cell c).cdr).cdr b L) (hne : b ≠ []) (x : Int) (gp mp : Option Bool) :
    ∃ W' s' x' gp' mp', Walk False K ⟨.eval, s, x, gp, mp⟩ ⟨.dispatch, s', x', gp', mp'⟩ ∧ Popped s s' ∧ Later W s W' s' ∧
      World s' W' mes { (σ.declare f).2 with vals := (σ.declare f).2.vals.set (σ.declare f).1 (.clo fs r b fun _ => none) } ∧
      s'.free ≤ s.free + (functionCells fs b + 5) ∧ IsVal s' W' mes s'.r1 (.obj c_unspecified) := by
  obtain ⟨W2, s5, l, p, a5, e4, e5, e6, hrp, hwp, hcode, hfp, henv, hcp, hdp, cc, cd, hsteps⟩ :=
    function_start (K := K) hr hp hc1 hc hh h1 ht hpt hx hi hn hf hs hb hne
  have hgp := grow_pushed s5 l c p c_vm_eval_define
  obtain ⟨W6, s6, y6, j1, j2, j3, j4, j5, j6⟩ := lam_ok (mv := False) (K := K) (N := N) (hrp.mono (k' := 4) (by omega) (Nat.le_refl _)) hwp hcode hfp henv hp.scope.mark
    (fun _ _ => rfl) x (some true) (some false)
  have hb := j2.back
  have a6 : Adv W2 s5 W6 s6 4 := ⟨hb.keeps, (hgp.later W2).trans j3, j5⟩
  have a06 := a5.trans a6
  have hr6 := hr.adv (k' := 1) a06 (by omega)
  have r20 : s6.r2 = c := hb.r2
  have r00 : s6.r0 = s.r0 := by rw [hb.r0, e4]
  have hp6 := hcp.later a6.later
  have cp := hcp.cell_eq a6.later
  have h16 := hdp.later a6.later
  have c1 := hdp.cell_eq a6.later
  have ct := hpt.cell_eq a06.later
  obtain ⟨F', s7, m1, m2, m3, m4⟩ := store_at (t := t) (l := (σ.declare f).1) hr6 j4 (hp.scope.at a06.later r00) (hi.later a06.later) hn
    (by rw [r20]; exact hp6) (by rw [r20, cp, cc]; exact h16) (by rw [r20, cp, cc, c1, cd]; exact ht) (a06.later.valid hpt.valid)
    (by rw [ct, hpt.tag]; exact hx) e6 j6
  have hr7 := hr6.adv (k' := 0) m2 (by omega)
  have hv7 : IsVal s7 W6 mes s7.r1 (.obj c_unspecified) := by rw [m4]; exact isVal_unspecified m3
  obtain ⟨W8, s8, y8, n1, n2, n3, n4, n5, n6⟩ := Sub.retVal (mv := False) (K := K) hr7 m3 hv7 y6 (some true) (some false)
  have a07 := a06.trans m2
  refine ⟨W8, s8, y8, some true, some false, ?_, a07.keeps.popped n2, a07.later.trans n3, n4, by have := a07.free; omega, n6⟩
  refine .trans (hsteps x gp mp) (j1.trans (.trans (.dispatch (l := .evalDefine) (by rw [hb.r3]; decide)) (.trans ?_ n1)))
  refine .fuel (fun q => q.elim) F' fun fuel hf => ?_
  simp only [step, m1 fuel hf, ok_bind]

/-- The machine evaluates top level forms whose variables may be expanded. -/
theorem source {δ : Int → Int → List Value → Value → Prop} (hK : Implements K.builtin mes δ) {f : Toplevel} {v : Value}
    (h : EvalForm mes δ d σ f v σ') : ∃ k, SourceOk K mes k d σ f v σ' := by
  obtain ⟨k, hk⟩ := top (mv := False) hK (fun q => q.elim) h
  have hbound : ∃ n, ∀ g fs r b, f = .define g (.lam fs r b) → functionCells fs b + 5 ≤ n := by
    rcases f with e | ⟨x, e⟩
    · exact ⟨0, nofun⟩
    cases e with
    | lam fs r b => exact ⟨functionCells fs b + 5, fun _ _ _ _ e => by cases e; exact Nat.le_refl _⟩
    | _ => exact ⟨0, nofun⟩
  obtain ⟨n, hn⟩ := hbound
  refine ⟨k + n, fun W s N L hr hp ht x gp mp => ?_⟩
  have hL : ∀ a ∈ L, W.src a ∧ W.cur a := fun a ha => ⟨(ht.bound a ha).src, hp.cur a ha⟩
  rcases ht.take hL with hform | ⟨t, g, fs, r, b, L', rfl, rfl, hc, hh, h1, htt, hpt, hx, hi, hng, hf, hs, hb, hne⟩
  · have hl := take_later W s hL
    obtain ⟨W', s', x', gp', mp', k1, k2, k3, k4, k5, k6⟩ := hk _ s N (hr.mono (by omega) (Nat.le_refl _)) (take_world hp.world hL) hform (hp.scope.later hl) hp.key x gp mp
    exact ⟨W', s', x', gp', mp', k1, k2, hl.trans k3, k4, by omega, k6⟩
  · have := hn g fs r b rfl
    cases h with
    | define h =>
      cases h with
      | lam =>
        obtain ⟨W', s', x', gp', mp', k1, k2, k3, k4, k5, k6⟩ := function_ok (K := K) (hr.mono (by omega) (Nat.le_refl _)) hp rfl hc hh h1 htt hpt hx hi hng hf hs hb hne x gp mp
        exact ⟨W', s', x', gp', mp', k1, k2, k3, k4, by omega, k6⟩

end Mes
