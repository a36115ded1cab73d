import Verif.Spec.Values
import Verif.Proof.EvalCall
/-
`apply_builtin` with multiple values among the arguments.
-/
namespace Mes
open Res Spec

variable {s s' : St} {K : Calls}

theorem Spec.IsBuiltin.ext {M : Int → Prop} {a n id : Int} (h : IsBuiltin s M a n id) (hf : Ext s s') : IsBuiltin s' M a n id := by
  have e : ∀ b, s.Valid b → s'.cell b = s.cell b := fun b hb => hf.same b hb.2 (fun q => q)
  have e1 := e _ h.valid
  have e2 := e _ h.kvalid
  have e3 := e _ h.arity.valid
  have e4 := e _ h.function.valid
  exact ⟨hf.valid h.valid, by rw [e1]; exact h.tag, by rw [e1]; exact h.length, h.fixed, by rw [e1]; exact hf.valid h.kvalid, by rw [e1, e2]; exact h.ktag,
    by rw [e1, e2]; exact h.kind, by rw [e1]; exact h.kfixed, by rw [e1]; exact ⟨hf.valid h.arity.valid, by rw [e3]; exact h.arity.tag, by rw [e3]; exact h.arity.value⟩,
    by rw [e1]; exact h.afixed, by rw [e1]; exact ⟨hf.valid h.function.valid, by rw [e4]; exact h.function.tag, by rw [e4]; exact h.function.value⟩,
    by rw [e1]; exact h.ffixed⟩

theorem Spec.IsArg.ext {y : Int} (h : IsArg s y) (hf : Ext s s') : IsArg s' y := by
  have e := hf.same y h.valid.2 id
  exact ⟨hf.valid h.valid, fun q => by
    rw [e] at q ⊢
    exact ⟨hf.valid (h.values q).1, by rw [hf.same _ (h.values q).1.2 id]; exact (h.values q).2⟩⟩

theorem oneValue_ext {y : Int} (h : IsArg s y) (hf : Ext s s') : oneValue s' y = oneValue s y := by
  unfold oneValue
  rw [hf.same y h.valid.2 id]
  split
  · rename_i q
    rw [hf.same _ (h.values q).1.2 id]
  · rfl

/-- `apply_builtin` after the arity is known. -/
theorem applyBuiltin_arity {M : Int → Prop} {a n id x : Int} (hb : IsBuiltin s M a n id) (h1 : -1 ≤ n) (h2 : n < 2 ^ 31) (hr : Room s 1) :
    ∃ s1, Ext s s1 ∧ s1.free = s.free + 1 ∧ ∀ fuel, applyBuiltin K s fuel a x = (do
      let (x, s) ← firstValue s1 n x
      let (x, s) ← secondValue s n x
      if n = 0 then do
        let (f, s) ← builtinFunction s a
        K.builtin fuel f [] s
      else if n = 1 then do
        let c ← s.rd x
        let (f, s) ← builtinFunction s a
        K.builtin fuel f [c.car] s
      else if n = 2 then do
        let c ← s.rd x
        let d ← s.rd c.cdr
        let (f, s) ← builtinFunction s a
        K.builtin fuel f [c.car, d.car] s
      else if n = 3 then do
        let c ← s.rd x
        let d ← s.rd c.cdr
        let e ← s.rd d.cdr
        let (f, s) ← builtinFunction s a
        K.builtin fuel f [c.car, d.car, e.car] s
      else if n = -1 then do
        let (f, s) ← builtinFunction s a
        K.builtin fuel f [x] s
      else ok (c_unspecified, s)) := by
  refine ⟨s.push { tag := .number, car := 0, cdr := n }, push_ext _ _, by simp, fun fuel => ?_⟩
  have v1 := hr.free_valid { tag := .number, car := 0, cdr := n }
  have c1 : (s.push { tag := .number, car := 0, cdr := n }).cell s.free = { tag := .number, car := 0, cdr := n } := by simp
  have h32 : toInt32 n = n := toInt32_id (by omega) (by omega)
  simp only [applyBuiltin, hb.arity_ok hr, ok_bind, St.cdr_ok v1, c1, h32]

/-- A pair in front of the rest of a list. -/
theorem IsList_push {y p : Int} {ys : List Int} (h : IsList s p (y :: ys)) (hr : Room s 1) (z : Int) :
    IsList (s.push { tag := .pair, car := z, cdr := (s.cell p).cdr }) s.free (z :: ys) := by
  have e := push_ext s { tag := .pair, car := z, cdr := (s.cell p).cdr }
  have hv := hr.free_valid { tag := .pair, car := z, cdr := (s.cell p).cdr }
  have hc : (s.push { tag := .pair, car := z, cdr := (s.cell p).cdr }).cell s.free = { tag := .pair, car := z, cdr := (s.cell p).cdr } := by simp
  have hb := hr.base
  cases h with
  | cons hne hv' ht hx h' => 
    refine .cons (by simp only [c_symbol_max, c_nil] at hb ⊢; omega) hv (by rw [hc]) (by rw [hc]) ?_
    rw [hc]
    exact IsList.ext h' e

/-- The first argument. -/
theorem firstValue_list {n x y : Int} {ys : List Int} (hl : IsList s x (y :: ys)) (ha : IsArg s y) (hn : 0 < n ∨ n = -1) (hr : Room s 1) :
    ∃ x' s', Ext s s' ∧ s'.free ≤ s.free + 1 ∧ firstValue s n x = ok (x', s') ∧ IsList s' x' (oneValue s y :: ys) := by
  have hl0 := hl
  cases hl with
  | cons hne hv ht hx h' =>
    subst hx
    unfold firstValue
    rw [if_pos ⟨hn, hne⟩]
    simp only [St.rd_ok hv, ok_bind, St.rd_ok ha.valid]
    by_cases q : (s.cell (s.cell x).car).tag = .values
    · simp only [q, if_true, St.car_ok (ha.values q).1, ok_bind, cons_ok hr, oneValue]
      exact ⟨_, _, push_ext _ _, by simp, rfl, IsList_push hl0 hr _⟩
    · simp only [q, if_false, oneValue]
      exact ⟨x, s, .refl _ _, by omega, rfl, hl0⟩

/-- No multiple values in the place of the second argument. -/
theorem secondValue_plain {n x : Int} {ys : List Int} (hl : IsList s x ys) (ha : ∀ y ∈ ys.tail, IsArg s y ∧ (s.cell y).tag ≠ .values) (hnil : (s.cell c_nil).tag ≠ .pair)
    (hr : Room s 0) : secondValue s n x = ok (x, s) := by
  unfold secondValue
  split
  · rename_i hc
    cases hl with
    | nil => exact absurd rfl hc.2
    | @cons _ y ys hne hv ht hx h' =>
      simp only [St.rd_ok hv, ok_bind]
      have hd : s.Valid (s.cell x).cdr := by
        generalize (s.cell x).cdr = q at h'
        cases h' with
        | nil => exact hr.valid (by decide) (by decide)
        | cons _ hv _ _ _ => exact hv
      rw [St.rd_ok hd, ok_bind]
      by_cases q : (s.cell (s.cell x).cdr).tag = .pair
      · rw [if_pos q]
        generalize (s.cell x).cdr = r at *
        cases h' with
        | nil => exact absurd q hnil
        | cons hne' hv' ht' hx' h'' =>
          subst hx'
          have := ha (s.cell r).car (by simp)
          simp only [St.rd_ok this.1.valid, ok_bind, this.2, if_false]
      · rw [if_neg q]
  · rfl

/-- The second argument, when there are two. -/
theorem secondValue_two {x y z : Int} (hl : IsList s x [y, z]) (ha : IsArg s z) (hr : Room s 2) :
    ∃ x' s', Ext s s' ∧ s'.free ≤ s.free + 2 ∧ secondValue s 2 x = ok (x', s') ∧ s'.Valid x' ∧ (s'.cell x').car = y ∧ s'.Valid (s'.cell x').cdr ∧
      (s'.cell (s'.cell x').cdr).car = oneValue s z := by
  cases hl with
  | cons hne hv ht hx h' =>
    subst hx
    unfold secondValue
    rw [if_pos ⟨.inl (by decide), hne⟩]
    generalize hq : (s.cell x).cdr = q at h'
    cases h' with
    | cons hne' hv' ht' hx' h'' =>
      subst hx'
      simp only [St.rd_ok hv, ok_bind, hq, St.rd_ok hv', ht', if_true, St.rd_ok ha.valid]
      by_cases e : (s.cell (s.cell q).car).tag = .values
      · have e1 := push_ext s { tag := .pair, car := (s.cell (s.cell (s.cell q).car).cdr).car, cdr := q }
        have f1 : (s.push { tag := .pair, car := (s.cell (s.cell (s.cell q).car).cdr).car, cdr := q }).free = s.free + 1 := by simp
        have c1 : (s.push { tag := .pair, car := (s.cell (s.cell (s.cell q).car).cdr).car, cdr := q }).cell s.free = { tag := .pair, car := (s.cell (s.cell (s.cell q).car).cdr).car, cdr := q } := by simp
        simp only [e, if_true, St.car_ok (ha.values e).1, ok_bind, cons_ok (hr.mono (show (1 : Int) ≤ 2 by decide)), oneValue]
        generalize s.push { tag := .pair, car := (s.cell (s.cell (s.cell q).car).cdr).car, cdr := q } = s1 at *
        have hr1 : Room s1 1 := hr.step e1 (by omega)
        have hb := hr1.base
        simp only [c_symbol_max] at hb
        rw [cons_ok hr1]
        have c2 : (s1.push { tag := .pair, car := (s.cell x).car, cdr := s.free }).cell s1.free = { tag := .pair, car := (s.cell x).car, cdr := s.free } := by simp
        refine ⟨_, _, e1.trans (push_ext _ _), by simp; omega, rfl, hr1.free_valid _, by rw [c2], ?_, ?_⟩
        · rw [c2]
          exact ⟨by have := hr.base; simp only [c_symbol_max] at this; show 1 ≤ s.free; omega, by simp; omega⟩
        · rw [c2]
          simp only
          rw [St.push_cell_lt _ (by omega), c1]
      · simp only [e, if_false, oneValue]
        exact ⟨x, s, .refl _ _, by omega, rfl, hv, rfl, by rw [hq]; exact hv', by rw [hq]⟩

theorem map_oneValue {ys : List Int} (h : ∀ y ∈ ys, (s.cell y).tag ≠ .values) : ys.map (oneValue s) = ys := by
  induction ys with
  | nil => rfl
  | cons y ys ih =>
    rw [List.map_cons, ih (fun z hz => h z (by simp [hz]))]
    simp only [oneValue, if_neg (h y (by simp))]

theorem IsList_uncons {p y : Int} {ys : List Int} (h : IsList s p (y :: ys)) : s.Valid p ∧ (s.cell p).car = y ∧ IsList s (s.cell p).cdr ys := by
  cases h with
  | cons _ h2 _ h4 h5 => exact ⟨h2, h4, h5⟩

/-- The arguments from the list. -/
theorem applyBuiltin_args {M : Int → Prop} {a n id x : Int} {ys : List Int} (hb : IsBuiltin s M a n id) (hl : IsList s x ys)
    (hn : n = -1 ∨ n = ys.length ∧ ys.length ≤ 3) (hr : Room s 1) :
    ∃ us s', Ext s s' ∧ Receives s' n us ys ∧ ∀ fuel, (
      if n = 0 then do
        let (f, s) ← builtinFunction s a
        K.builtin fuel f [] s
      else if n = 1 then do
        let c ← s.rd x
        let (f, s) ← builtinFunction s a
        K.builtin fuel f [c.car] s
      else if n = 2 then do
        let c ← s.rd x
        let d ← s.rd c.cdr
        let (f, s) ← builtinFunction s a
        K.builtin fuel f [c.car, d.car] s
      else if n = 3 then do
        let c ← s.rd x
        let d ← s.rd c.cdr
        let e ← s.rd d.cdr
        let (f, s) ← builtinFunction s a
        K.builtin fuel f [c.car, d.car, e.car] s
      else if n = -1 then do
        let (f, s) ← builtinFunction s a
        K.builtin fuel f [x] s
      else ok (c_unspecified, s)) = K.builtin fuel id us s' := by
  have hf := hb.function_ok hr
  have e := push_ext s { tag := .number, car := 0, cdr := id }
  simp only [hf, ok_bind]
  generalize s.push { tag := .number, car := 0, cdr := id } = s' at *
  rcases hn with rfl | ⟨rfl, h3⟩
  · exact ⟨[x], s', e, by rw [Receives, if_pos rfl]; exact ⟨x, rfl, IsList.ext hl e⟩, fun fuel => by simp⟩
  · refine ⟨ys, s', e, by rw [Receives, if_neg (by omega)], fun fuel => ?_⟩
    match ys, hl, h3 with
    | [], hl, h3 => simp
    | [u0], hl, _ =>
      obtain ⟨h1, h2, -⟩ := IsList_uncons hl
      simp [St.rd_ok h1, h2]
    | [u0, u1], hl, _ =>
      obtain ⟨h1, h2, hl⟩ := IsList_uncons hl
      obtain ⟨i1, i2, -⟩ := IsList_uncons hl
      simp [St.rd_ok h1, h2, St.rd_ok i1, i2]
    | [u0, u1, u2], hl, _ =>
      obtain ⟨h1, h2, hl⟩ := IsList_uncons hl
      obtain ⟨i1, i2, hl⟩ := IsList_uncons hl
      obtain ⟨j1, j2, -⟩ := IsList_uncons hl
      simp [St.rd_ok h1, h2, St.rd_ok i1, i2, St.rd_ok j1, j2]

/-- Multiple values as the first argument count as one. -/
theorem applyBuiltin_first {M : Int → Prop} {a n id x : Int} {ys : List Int} (hb : IsBuiltin s M a n id) (hl : IsList s x ys) (ha : ∀ y ∈ ys, IsArg s y)
    (hv : ∀ y ∈ ys.tail, (s.cell y).tag ≠ .values) (hnil : (s.cell c_nil).tag ≠ .pair)
    (hn : n = -1 ∨ n = ys.length ∧ ys.length ≤ 3) (hr : Room s 3) :
    ∃ us s', Ext s s' ∧ Receives s' n us (ys.map (oneValue s)) ∧ ∀ fuel, applyBuiltin K s fuel a x = K.builtin fuel id us s' := by
  obtain ⟨s1, e1, f1, h1⟩ := applyBuiltin_arity (K := K) (x := x) hb (by omega) (by omega) (hr.mono (by decide))
  have hr1 : Room s1 2 := hr.step e1 (by omega)
  have hl1 := IsList.ext hl e1
  have ha1 : ∀ y ∈ ys, IsArg s1 y := fun y hy => (ha y hy).ext e1
  have hnil1 : (s1.cell c_nil).tag ≠ .pair := by
    rw [e1.same _ (hr.valid (by decide) (by decide)).2 (fun q => q)]
    exact hnil
  have hb1 := hb.ext e1
  simp only [h1]
  match ys, hl1, ha, ha1, hv, hn with
  | [], .nil, _, _, _, hn =>
    have q : firstValue s1 n c_nil = ok (c_nil, s1) := by unfold firstValue; simp
    have q' : secondValue s1 n c_nil = ok (c_nil, s1) := by unfold secondValue; simp
    simp only [q, q', ok_bind]
    obtain ⟨us, s', i1, i2, i3⟩ := applyBuiltin_args (K := K) (x := c_nil) hb1 .nil hn (hr1.mono (by decide))
    exact ⟨us, s', e1.trans i1, i2, i3⟩
  | y :: ys, hl1, ha, ha1, hv, hn =>
    obtain ⟨x', s2, e2, f2, h2, hl2⟩ := firstValue_list (n := n) hl1 (ha1 y (by simp)) (by simp at hn; omega) (hr1.mono (by decide))
    have hr2 : Room s2 1 := hr1.step e2 (by omega)
    have e12 := e1.trans e2
    have q' : secondValue s2 n x' = ok (x', s2) := secondValue_plain hl2 (fun z hz => by
        have hz' : z ∈ ys := hz
        refine ⟨(ha z (by simp [hz'])).ext e12, ?_⟩
        rw [e12.same _ (ha z (by simp [hz'])).valid.2 (fun q => q)]
        exact hv z hz') (by rw [e2.same _ (hr1.valid (by decide) (by decide)).2 (fun q => q)]; exact hnil1) (hr2.mono (by decide))
    simp only [h2, q', ok_bind]
    rw [oneValue_ext (ha y (by simp)) e1] at hl2
    obtain ⟨us, s', i1, i2, i3⟩ := applyBuiltin_args (K := K) (x := x') (hb1.ext e2) hl2 (by simpa using hn) hr2
    refine ⟨us, s', e12.trans i1, ?_, i3⟩
    rw [List.map_cons, map_oneValue (ys := ys) hv]
    exact i2

/-- Two parameters. -/
theorem applyBuiltin_two {M : Int → Prop} {a id x y z : Int} (hb : IsBuiltin s M a 2 id) (hl : IsList s x [y, z]) (hy : IsArg s y) (hz : IsArg s z)
    (hr : Room s 5) : ∃ s', Ext s s' ∧ ∀ fuel, applyBuiltin K s fuel a x = K.builtin fuel id [oneValue s y, oneValue s z] s' := by
  obtain ⟨s1, e1, f1, h1⟩ := applyBuiltin_arity (K := K) (x := x) hb (by omega) (by omega) (hr.mono (by decide))
  have hr1 : Room s1 4 := hr.step e1 (by omega)
  obtain ⟨x', s2, e2, f2, h2, hl2⟩ := firstValue_list (n := 2) (IsList.ext hl e1) (hy.ext e1) (.inl (by decide)) (hr1.mono (by decide))
  have hr2 : Room s2 3 := hr1.step e2 (by omega)
  obtain ⟨x3, s3, e3, f3, h3, g1, g2, g3, g4⟩ := secondValue_two hl2 ((hz.ext e1).ext e2) (hr2.mono (by decide))
  have hr3 : Room s3 1 := hr2.step e3 (by omega)
  have e := push_ext s3 { tag := .number, car := 0, cdr := id }
  refine ⟨_, ((e1.trans e2).trans e3).trans e, fun fuel => ?_⟩
  simp only [h1, h2, ok_bind, h3]
  rw [if_neg (by decide), if_neg (by decide)]
  simp only [if_true]
  simp only [St.rd_ok g1, ok_bind, St.rd_ok g3, (((hb.ext e1).ext e2).ext e3).function_ok hr3, g2, g4]
  rw [oneValue_ext (hz.ext e1) e2, oneValue_ext hz e1, oneValue_ext hy e1]

/-- More than three parameters: the function is not called. -/
theorem applyBuiltin_many {M : Int → Prop} {a n id x : Int} {ys : List Int} (hb : IsBuiltin s M a n id) (hl : IsList s x ys) (ha : ∀ y ∈ ys, IsArg s y)
    (hv : ∀ y ∈ ys, (s.cell y).tag ≠ .values) (hnil : (s.cell c_nil).tag ≠ .pair) (hn : 3 < n) (hn' : n < 2 ^ 31) (hr : Room s 1) :
    ∃ s', Ext s s' ∧ ∀ fuel, applyBuiltin K s fuel a x = ok (c_unspecified, s') := by
  obtain ⟨s1, e1, f1, h1⟩ := applyBuiltin_arity (K := K) (x := x) hb (by omega) hn' hr
  have hr1 : Room s1 0 := hr.step e1 (by omega)
  have hl1 := IsList.ext hl e1
  have ha1 : ∀ y ∈ ys, IsArg s1 y ∧ (s1.cell y).tag ≠ .values := fun y hy => ⟨(ha y hy).ext e1, by rw [e1.same _ (ha y hy).valid.2 (fun q => q)]; exact hv y hy⟩
  have hnil1 : (s1.cell c_nil).tag ≠ .pair := by
    rw [e1.same _ (hr.valid (by decide) (by decide)).2 (fun q => q)]
    exact hnil
  have q : firstValue s1 n x = ok (x, s1) := by
    unfold firstValue
    split
    · rename_i hc
      cases hl1 with
      | nil => exact absurd rfl hc.2
      | cons _ hvx _ hx _ =>
        subst hx
        have := ha1 (s1.cell x).car (by simp)
        simp only [St.rd_ok hvx, ok_bind, St.rd_ok this.1.valid, this.2, if_false]
    · rfl
  have q' : secondValue s1 n x = ok (x, s1) := secondValue_plain hl1 (fun z hz => ha1 z (List.mem_of_mem_tail hz)) hnil1 hr1
  refine ⟨s1, e1, fun fuel => ?_⟩
  simp only [h1, q, ok_bind, q']
  rw [if_neg (by omega), if_neg (by omega), if_neg (by omega), if_neg (by omega), if_neg (by omega)]

end Mes
