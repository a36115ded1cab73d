import Verif.Proof.EvalRep
/-
Variables: looking them up, and binding parameters.
-/
namespace Mes
open Res Spec

variable {s s' s'' : St} {W W' : Ghost} {M : Int → Prop} {mes : Bool} {σ : Store} {N : Idents} {ρ : Locals}

theorem World.fixed_cell (hw : World s W mes σ) {a : Int} (h1 : c_nil ≤ a) (h2 : a < c_symbol_max) :
    s.Valid a ∧ (s.cell a).tag = if a < 46 then .special else .symbol :=
  ⟨⟨by simp only [c_nil] at h1; omega, Int.lt_of_lt_of_le h2 hw.base⟩, hw.tags a h1 h2⟩

theorem World.nil (hw : World s W mes σ) : s.Valid c_nil ∧ (s.cell c_nil).tag = .special :=
  World.fixed_cell hw (by decide) (by decide)
theorem World.false_ (hw : World s W mes σ) : s.Valid c_f ∧ (s.cell c_f).tag = .special :=
  World.fixed_cell hw (by decide) (by decide)

theorem Spec.Assq.ptr {x r : Int} {o : Option Int} (h : Assq s W x r o) :
    ∃ F, ∀ fuel, F ≤ fuel → assqPtr s x fuel r = ok (o.getD c_f) := by
  induction h with
  | nil =>
    refine ⟨1, fun fuel hf => ?_⟩
    obtain ⟨fuel, rfl⟩ : ∃ f, fuel = f + 1 := ⟨fuel - 1, by omega⟩
    simp [assqPtr]
  | here hr hv ht _ hx =>
    refine ⟨1, fun fuel hf => ?_⟩
    obtain ⟨fuel, rfl⟩ : ∃ f, fuel = f + 1 := ⟨fuel - 1, by omega⟩
    simp only [assqPtr, if_neg hr.ne, St.rd_ok hr.valid, ok_bind, St.car_ok hv, hx, if_true, Option.getD_some]
  | next hr hv ht _ hx _ ih =>
    obtain ⟨F, ih⟩ := ih
    refine ⟨F + 1, fun fuel hf => ?_⟩
    obtain ⟨fuel, rfl⟩ : ∃ f, fuel = f + 1 := ⟨fuel - 1, by omega⟩
    simp only [assqPtr, if_neg hr.ne, St.rd_ok hr.valid, ok_bind, St.car_ok hv, if_neg (Ne.symm hx)]
    exact ih fuel (by omega)

theorem Spec.Assq.run {x r : Int} {o : Option Int} (h : Assq s W x r o) (hn : s.Valid c_nil ∧ (s.cell c_nil).tag = .special)
    (hv : s.Valid x) (ht : (s.cell x).tag = .symbol) : ∃ F, ∀ fuel, F ≤ fuel → assq s fuel x r = ok (o.getD c_f) := by
  obtain ⟨F, hF⟩ := h.ptr
  refine ⟨F, fun fuel hf => ?_⟩
  have key : ∀ r', s.Valid r' → (s.cell r').tag = .pair → r = r' → assq s fuel x r = ok (o.getD c_f) := by
    rintro _ h1 h2 rfl
    simp only [assq, St.rd_ok h1, ok_bind, h2, ne_eq, not_true, if_false, St.rd_ok hv, ht, true_or, if_true]
    exact hF fuel hf
  cases h with
  | nil => simp only [assq, St.rd_ok hn.1, ok_bind, hn.2]; simp
  | here hr => exact key _ hr.valid hr.tag rfl
  | next hr => exact key _ hr.valid hr.tag rfl

theorem Spec.Assq.entry {x r p : Int} (h : Assq s W x r (some p)) : s.Valid p ∧ (s.cell p).tag = .pair := by
  generalize ho : some p = o at h
  induction h with
  | nil => cases ho
  | here _ hv ht => cases ho; exact ⟨hv, ht⟩
  | next _ _ _ _ _ _ ih => exact ih ho

theorem Spec.Items.ptr {x p : Int} {L : List (Int × Int)} (h : Items s M p (L.map (·.2)))
    (he : ∀ e ∈ L, s.Valid e.2 ∧ (s.cell e.2).car = e.1) :
    ∃ F, ∀ fuel, F ≤ fuel → assqPtr s x fuel p = ok ((lookup x L).getD c_f) := by
  induction L generalizing p with
  | nil =>
    cases h
    refine ⟨1, fun fuel hf => ?_⟩
    obtain ⟨fuel, rfl⟩ : ∃ f, fuel = f + 1 := ⟨fuel - 1, by omega⟩
    simp [assqPtr, lookup]
  | cons e L ih =>
    rw [List.map_cons] at h
    obtain ⟨h1, h2, h3⟩ : FixedPair s M p ∧ (s.cell p).car = e.2 ∧ Items s M (s.cell p).cdr (L.map (·.2)) := by
      generalize hl : e.2 :: L.map (·.2) = ll at h
      cases h with
      | nil => cases hl
      | cons h1 h2 => injection hl with l1 l2; subst l2; exact ⟨h1, l1.symm, h2⟩
    obtain ⟨F, ih⟩ := ih h3 (fun e he' => he e (.tail _ he'))
    obtain ⟨e1, e2⟩ := he e (.head _)
    refine ⟨F + 1, fun fuel hf => ?_⟩
    obtain ⟨fuel, rfl⟩ : ∃ f, fuel = f + 1 := ⟨fuel - 1, by omega⟩
    simp only [assqPtr, if_neg h1.ne, St.rd_ok h1.valid, ok_bind, h2, St.car_ok e1, e2, lookup]
    by_cases hx : x = e.1
    · simp [hx]
    · rw [if_neg hx, if_neg (Ne.symm hx)]
      exact ih fuel (by omega)

theorem Spec.Items.first {p : Int} {xs : List Int} (h : Items s M p xs) (hne : xs ≠ []) : FixedPair s M p := by
  cases h with
  | nil => exact absurd rfl hne
  | cons h => exact h

/-- The size, the buckets and a bucket of the table. -/
theorem Spec.Globals.size_ok {t : Int} {n : Nat} {H : List (Int × Int)} (h : Globals s W t n H) (hr : Room s 1) :
    structRef s t 3 = ok (s.free, s.push { tag := .number, car := 0, cdr := (n : Int) }) := by
  simp only [structRef, St.rd_ok h.valid, ok_bind, assert_true h.tag, h.length,
    assert_true (show (3 : Int) < 5 by decide), fetch_num hr h.size]

theorem Spec.Globals.buckets_ok {t : Int} {n : Nat} {H : List (Int × Int)} (h : Globals s W t n H) :
    structRef s t 4 = ok (bucketsOf s t, s) := by
  simp only [structRef, St.rd_ok h.valid, ok_bind, assert_true h.tag, h.length,
    assert_true (show (4 : Int) < 5 by decide)]
  exact fetch_ref h.rvalid h.rtag rfl h.vvalid (by rw [h.vtag]; decide)

theorem Spec.Globals.bucket_cases {t : Int} {n : Nat} {H : List (Int × Int)} (h : Globals s W t n H)
    (hu : s.Valid c_unspecified ∧ (s.cell c_unspecified).tag = .special) {i : Nat} (hi : i < n) :
    s.Valid (s.cell ((s.cell (bucketsOf s t)).cdr + i)).car ∧
    ((H.filter (fun e => slot n (W.name e.1) = i) = [] ∧
        (s.cell (s.cell ((s.cell (bucketsOf s t)).cdr + i)).car).tag = .special) ∨
     (H.filter (fun e => slot n (W.name e.1) = i) ≠ [] ∧
        (s.cell (s.cell ((s.cell (bucketsOf s t)).cdr + i)).car).tag = .pair ∧
        Items s W.chg (s.cell ((s.cell (bucketsOf s t)).cdr + i)).car ((H.filter (fun e => slot n (W.name e.1) = i)).map (·.2)))) := by
  by_cases hL : H.filter (fun e => slot n (W.name e.1) = i) = []
  · rw [(h.bucket i hi).1 hL]
    exact ⟨hu.1, .inl ⟨hL, hu.2⟩⟩
  · have h1 := (h.bucket i hi).2 hL
    have h2 := h1.first (by simpa using hL)
    exact ⟨h2.valid, .inr ⟨hL, h2.tag, h1⟩⟩

theorem Spec.Globals.bucket_ok {t : Int} {n : Nat} {H : List (Int × Int)} (h : Globals s W t n H)
    (hu : s.Valid c_unspecified ∧ (s.cell c_unspecified).tag = .special) {i : Nat} (hi : i < n) :
    vectorRef s (bucketsOf s t) i = ok ((s.cell ((s.cell (bucketsOf s t)).cdr + i)).car, s) := by
  have hlt : (i : Int) < n := by omega
  simp only [vectorRef, St.rd_ok h.vvalid, ok_bind, assert_true h.vtag, h.vlength, assert_true hlt]
  obtain ⟨h1, h2⟩ := h.bucket_cases hu hi
  refine fetch_ref (h.bvalid i hi) (h.btag i hi) rfl h1 ?_
  rcases h2 with ⟨-, h2⟩ | ⟨-, h2, -⟩ <;> rw [h2] <;> decide

/-- Looking up a global variable. -/
theorem Spec.Globals.get {t x : Int} {n : Nat} {H : List (Int × Int)} (h : Globals s W t n H) (hw : World s W mes σ)
    (hx : IsName s W x) (hr : Room s 1) :
    ∃ F, ∀ fuel, F ≤ fuel → hashqGetHandle s fuel t x c_f =
      ok ((lookup x H).getD c_f, s.push { tag := .number, car := 0, cdr := (n : Int) }) := by
  have hg := push_ext s { tag := .number, car := 0, cdr := (n : Int) }
  have hsz := h.size_ok hr
  have h' := hg.grow.globals h
  have hw' := hw.grow hg.grow rfl
  have hx' := hx.later (hg.grow.later W)
  have hfree := hr.free_valid { tag := .number, car := 0, cdr := (n : Int) }
  generalize hs : s.push { tag := .number, car := 0, cdr := (n : Int) } = s1 at *
  have hcell : s1.cell s.free = { tag := .number, car := 0, cdr := (n : Int) } := by rw [← hs]; simp
  obtain ⟨v, e1, e2⟩ := hashq_ok hx'.text (.inl hx'.tag) hx'.ascii h.pos h.small
  have hsl := slot_lt (n := n) (W.name x) h.pos
  have hu : s1.Valid c_unspecified ∧ (s1.cell c_unspecified).tag = .special :=
    World.fixed_cell hw' (by decide) (by decide)
  have hF := World.false_ hw'
  have hlf : lookup x (H.filter (fun e => slot n (W.name e.1) = slot n (W.name x))) = lookup x H :=
    lookup_filter x H (fun k => slot n (W.name k))
  obtain ⟨b1, b2⟩ := h'.bucket_cases hu hsl
  rcases b2 with ⟨b2, b3⟩ | ⟨b2, b3, b4⟩
  · refine ⟨0, fun fuel _ => ?_⟩
    simp only [hashqGetHandle, hsz, ok_bind, St.cdr_ok hfree, hcell, e1, h'.buckets_ok, e2, h'.bucket_ok hu hsl,
      St.rd_ok hF.1, hF.2, St.rd_ok b1, b3]
    rw [b2] at hlf
    rw [← hlf]
    simp [lookup]
  · obtain ⟨F, hp⟩ := b4.ptr (x := x) (fun e he => by
      have := h'.entry e (List.mem_filter.1 he).1
      exact ⟨this.1, this.2.2.1⟩)
    refine ⟨F, fun fuel hf => ?_⟩
    simp only [hashqGetHandle, hsz, ok_bind, St.cdr_ok hfree, hcell, e1, h'.buckets_ok, e2, h'.bucket_ok hu hsl,
      St.rd_ok hF.1, hF.2, St.rd_ok b1, b3, if_true]
    simp only [assq, St.rd_ok b1, ok_bind, b3, ne_eq, not_true, if_false, St.rd_ok hx'.text.valid, hx'.tag, true_or, if_true,
      hp fuel hf]
    rw [hlf]

/-- Looking up a variable. -/
theorem moduleVariable_ok {x r : Int} (hw : World s W mes σ) (he : IsEnv s W N r ρ) (hx : IsName s W x) (hn : N x)
    (hr : Room s 1) :
    ∃ F s1, Ext s s1 ∧ s1.free ≤ s.free + 1 ∧
      ∀ fuel, F ≤ fuel → moduleVariable s fuel r x = ok (((σ.find ρ x).map W.loc).getD c_f, s1) := by
  obtain ⟨F, hF⟩ := (he x hn).1.run (World.nil hw) hx.text.valid hx.tag
  have hfalse := World.false_ hw
  cases hl : ρ x with
  | some l =>
    rw [hl] at hF
    have hent := (he x hn).1
    rw [hl] at hent
    have hp := hent.entry
    have hne : W.loc l ≠ c_f := fun e => by rw [e, hfalse.2] at hp; cases hp.2
    refine ⟨F, s, Frame.refl .., by omega, fun fuel hf => ?_⟩
    simp only [moduleVariable, hF fuel hf, ok_bind, Option.map_some, Option.getD_some, if_neg hne, Store.find, hl, Option.some_or]
  | none =>
    rw [hl] at hF
    obtain ⟨m1, m2, m3, m4, m5, m6, m7⟩ := hw.module
    obtain ⟨n, H, hg, hH⟩ := hw.table
    obtain ⟨F', hF'⟩ := hg.get hw hx hr
    refine ⟨max F F', s.push { tag := .number, car := 0, cdr := (n : Int) }, push_ext .., by simp, fun fuel hf => ?_⟩
    have hsr : structRef s s.m0 5 = ok ((s.cell ((s.cell s.m0).cdr + 5)).car, s) := by
      simp only [structRef, St.rd_ok m1, ok_bind, assert_true m2, assert_true m3]
      exact fetch_ref m5 m6 rfl hg.valid (by rw [hg.tag]; decide)
    simp only [moduleVariable, hF fuel (by omega), ok_bind, Option.map_none, Option.getD_none, if_true, hsr, hF' fuel (by omega),
      hH, Store.find, hl, Option.none_or]

theorem find_lt {x r : Int} {l : Nat} (hw : World s W mes σ) (he : IsEnv s W N r ρ) (hn : N x)
    (hl : σ.find ρ x = some l) : l < W.count := by
  unfold Store.find at hl
  cases h : ρ x with
  | none => rw [h, Option.none_or] at hl; exact hw.global x l hl
  | some k => rw [h, Option.some_or] at hl; cases hl; exact (he x hn).2 _ h

/-! ### Parameters -/

/-- The pairs (name . value) at `e`, `e + 1`, … in an association list in front of `a`; its own pairs are from `lo` on. -/
inductive Bound (s : St) (lo : Int) : Int → Int → List Int → List Int → Int → Prop
  | nil {e a : Int} : Bound s lo e a [] [] a
  | cons {e p x u a : Int} {xs us : List Int} (hp : s.Valid p) (ht : (s.cell p).tag = .pair) (hlo : lo ≤ p)
      (he : (s.cell p).car = e) (hev : s.Valid e) (hc : s.cell e = { tag := .pair, car := x, cdr := u })
      (h : Bound s lo (e + 1) (s.cell p).cdr xs us a) : Bound s lo e p (x :: xs) (u :: us) a

theorem Bound.grow {lo e p a : Int} {xs us : List Int} (h : Bound s lo e p xs us a) (hg : Grow s s') :
    Bound s' lo e p xs us a := by
  induction h with
  | nil => exact .nil
  | cons hp ht hlo he hev hc _ ih =>
    have e1 := hg.same _ hp.2
    exact .cons (hg.valid hp) (by rw [e1]; exact ht) hlo (by rw [e1]; exact he) (hg.valid hev)
      (by rw [hg.same _ hev.2]; exact hc) (by rw [e1]; exact ih)

theorem Bound.length {lo e p a : Int} {xs us : List Int} (h : Bound s lo e p xs us a) : us.length = xs.length := by
  induction h with
  | nil => rfl
  | cons _ _ _ _ _ _ _ ih => simp [ih]

theorem Spec.Args.later {us : List Int} {vs : List Value} (h : Args s W mes us vs) (hl : Later W s W' s') : Args s' W' mes us vs := by
  induction h with
  | nil => exact .nil
  | cons h _ ih => exact .cons (h.later hl) ih

theorem Spec.Args.get {us : List Int} {vs : List Value} (h : Args s W mes us vs) {i : Nat} {v : Value} (hv : vs[i]? = some v) :
    ∃ u, us[i]? = some u ∧ IsVal s W mes u v := by
  induction h generalizing i with
  | nil => simp at hv
  | cons h _ ih =>
    cases i with
    | zero => simp at hv; subst hv; exact ⟨_, rfl, h⟩
    | succ i => simp at hv; simpa using ih hv

theorem Spec.Args.length {us : List Int} {vs : List Value} (h : Args s W mes us vs) : us.length = vs.length := by
  induction h with
  | nil => rfl
  | cons _ _ ih => simp [ih]

theorem Spec.IsVals.list {p : Int} {vs : List Value} (h : IsVals s W mes p vs) (hw : World s W mes σ) :
    IsVal s W mes p (listVal vs) := by
  induction h with
  | nil =>
    have := World.nil hw
    exact .obj this.1 (by rw [this.2]; decide) (by decide)
  | cons hp hv _ ih => exact .pair hp hv ih

theorem Bound.valid_nil_ne (hw : World s W mes σ) {a : Int} (h : s.free ≤ a) : a ≠ c_nil := by
  have := hw.base; simp only [c_symbol_max, c_nil] at *; omega

theorem pairlis_ok {s0 : St} {f args a : Int} {fs : List Int} {r : Option Int} {vs ps : List Value}
    (hf : IsFormals s0 W.chg f fs r) (ha : IsVals s0 W mes args vs) (hp : paramVals fs r vs = some ps)
    (hw : World s0 W mes σ) (h0 : Grow s0 s) (hr : Room s (2 * ps.length)) :
    ∃ F p s' us, (∀ fuel, F ≤ fuel → pairlis fuel s f args a = ok (p, s')) ∧ Ext s s' ∧ s'.free = s.free + 2 * ps.length ∧
      Bound s' (s.free + ps.length) s.free p (fs ++ r.toList) us a ∧ Args s0 W mes us ps := by
  induction fs generalizing s f args vs ps with
  | nil =>
    generalize hfs : ([] : List Int) = fs at hf
    cases hf with
    | nil =>
      have : vs = [] ∧ ps = [] := by
        simp only [paramVals, List.length_nil, List.length_eq_zero_iff] at hp
        split at hp
        · next h => subst h; cases hp; exact ⟨rfl, rfl⟩
        · cases hp
      obtain ⟨rfl, rfl⟩ := this
      refine ⟨1, a, s, [], fun fuel hf => ?_, Frame.refl .., by simp, .nil, .nil⟩
      obtain ⟨fuel, rfl⟩ : ∃ f, fuel = f + 1 := ⟨fuel - 1, by omega⟩
      simp [pairlis]
    | rest hv ht hm =>
      have : ps = [listVal vs] := by simp [paramVals] at hp; exact hp.symm
      subst this
      have hx := push_ext s { tag := .pair, car := f, cdr := args }
      have ht := h0.same _ hv.2 ▸ ht
      have hv := h0.valid hv
      have c1 := cons_ok (hr.mono (by simp)) f args
      have f1 := hr.free_valid { tag := .pair, car := f, cdr := args }
      have r1 : Room (s.push { tag := .pair, car := f, cdr := args }) 1 := hr.step hx (by simp; omega)
      have hne : f ≠ c_nil := by rintro rfl; rw [h0.same _ (World.nil hw).1.2, (World.nil hw).2] at ht; cases ht
      have e1 : (s.push { tag := .pair, car := f, cdr := args }).cell s.free = { tag := .pair, car := f, cdr := args } := by simp
      have fr : (s.push { tag := .pair, car := f, cdr := args }).free = s.free + 1 := by simp
      generalize s.push { tag := .pair, car := f, cdr := args } = s1 at *
      have hx2 := push_ext s1 { tag := .pair, car := s.free, cdr := a }
      refine ⟨1, s1.free, s1.push { tag := .pair, car := s.free, cdr := a }, [args], fun fuel hf => ?_, hx.trans hx2, ?_, ?_,
        .cons (ha.list hw) .nil⟩
      · obtain ⟨fuel, rfl⟩ : ∃ f, fuel = f + 1 := ⟨fuel - 1, by omega⟩
        simp only [pairlis, if_neg hne, St.rd_ok hv, ok_bind, ht, c1, cons_ok r1]
        simp
      · simp [fr]; omega
      · refine .cons (r1.free_valid _) (by simp) (by simp [fr]) (by simp) (hx2.valid f1) ?_ (by simp; exact .nil)
        rw [hx2.same _ f1.2 id, e1]
    | cons => cases hfs
  | cons x xs ih =>
    obtain ⟨hpp, hx, hrest⟩ : FixedPair s0 W.chg f ∧ (s0.cell f).car = x ∧ IsFormals s0 W.chg (s0.cell f).cdr xs r := by
      generalize hfs : x :: xs = fs at hf
      cases hf with
      | nil => cases hfs
      | rest => cases hfs
      | cons h1 _ _ h2 => injection hfs with l1 l2; subst l2; exact ⟨h1, l1.symm, h2⟩
    obtain ⟨v, vs', ps', rfl, rfl, hp'⟩ : ∃ v vs' ps', vs = v :: vs' ∧ ps = v :: ps' ∧ paramVals xs r vs' = some ps' := by
      unfold paramVals at hp ⊢
      cases vs with
      | nil => cases r <;> simp at hp
      | cons v vs' =>
        cases r with
        | none => simp at hp; exact ⟨v, vs', vs', rfl, hp.2.symm, by simp [hp.1]⟩
        | some r => simp at hp; exact ⟨v, vs', _, rfl, hp.2.symm, by simp [hp.1]⟩
    obtain ⟨ap, av, arest⟩ : FixedPair s0 W.chg args ∧ IsVal s0 W mes (s0.cell args).car v ∧ IsVals s0 W mes (s0.cell args).cdr vs' := by
      cases ha with
      | cons h1 h2 h3 => exact ⟨h1, h2, h3⟩
    have ef := h0.same _ hpp.valid.2
    have ea := h0.same _ ap.valid.2
    have hpp := hpp.later (h0.later W)
    have ap := ap.later (h0.later W)
    rw [← ef] at hx hrest
    rw [← ea] at av arest
    simp only [List.length_cons] at hr ⊢
    have hx1 := push_ext s { tag := .pair, car := x, cdr := (s.cell args).car }
    have c1 := cons_ok (hr.mono (by omega)) x (s.cell args).car
    have f1 := hr.free_valid { tag := .pair, car := x, cdr := (s.cell args).car }
    have r1 : Room (s.push { tag := .pair, car := x, cdr := (s.cell args).car }) (2 * ps'.length + 1) :=
      hr.step hx1 (by simp; omega)
    have e1 : (s.push { tag := .pair, car := x, cdr := (s.cell args).car }).cell s.free =
      { tag := .pair, car := x, cdr := (s.cell args).car } := by simp
    have fr : (s.push { tag := .pair, car := x, cdr := (s.cell args).car }).free = s.free + 1 := by simp
    generalize s.push { tag := .pair, car := x, cdr := (s.cell args).car } = s1 at *
    have hl1 := hx1.grow.later W
    obtain ⟨F, q, s2, us, g1, g2, g3, g4, g5⟩ := ih hrest arest hp' (h0.trans hx1.grow) (r1.mono (by omega))
    have r2 : Room s2 1 := r1.step g2 (by omega)
    have hx3 := push_ext s2 { tag := .pair, car := s.free, cdr := q }
    have hcf := hx1.same _ hpp.valid.2 id
    have hca := hx1.same _ ap.valid.2 id
    refine ⟨F + 1, s2.free, s2.push { tag := .pair, car := s.free, cdr := q }, (s.cell args).car :: us, fun fuel hf => ?_,
      hx1.trans (g2.trans hx3), by simp; omega, ?_, .cons av g5⟩
    · obtain ⟨fuel, rfl⟩ : ∃ f, fuel = f + 1 := ⟨fuel - 1, by omega⟩
      have hpp1 := hpp.later hl1
      have ap1 := ap.later hl1
      simp only [pairlis, if_neg hpp.ne, St.rd_ok hpp.valid, ok_bind, hpp.tag, ne_eq, not_true, if_false, carP,
        St.rd_ok ap.valid, ap.tag, hx, c1, cdrP, St.rd_ok hpp1.valid, hpp1.tag, St.rd_ok ap1.valid, ap1.tag, hcf, hca,
        g1 fuel (by omega), cons_ok r2]
    · have hs2 : s2.Valid s.free := g2.valid f1
      refine .cons (r2.free_valid _) (by simp) (by simp [g3, fr]; omega) (by simp) (hx3.valid hs2) ?_ ?_
      · rw [hx3.same _ hs2.2 id, g2.same _ f1.2 id, e1]
      · simp only [St.push_cell_free]
        have := g4.grow hx3.grow
        rw [fr] at this
        have e : s.free + 1 + (ps'.length : Int) = s.free + ((ps'.length + 1 : Nat) : Int) := by omega
        rw [e] at this
        exact this

/-- The connection after binding `n` new locations, whose pairs start at `base`. -/
def Spec.Ghost.bind (W : Ghost) (base : Int) (n : Nat) : Ghost :=
  { W with
    count := W.count + n
    loc := fun l => if l < W.count then W.loc l else base + (l - W.count : Int)
    chg := fun a => W.chg a ∨ (base ≤ a ∧ a < base + n) }

theorem bind_later (hg : Grow s s') (n : Nat) : Later W s (W.bind s.free n) s' where
  le := hg.le
  same := fun a ha _ => hg.same a ha
  tag := fun a ha => by rw [hg.same a ha]
  car := fun a ha _ _ => by rw [hg.same a ha]
  count := Nat.le_add_right ..
  loc := fun l hl => by simp only [Ghost.bind, if_pos hl]
  chg := fun a ha => by
    rintro (h | h)
    · exact h
    · omega
  still := fun _ _ h _ => .inl h
  name := rfl
  kept := fun a ha _ _ => hg.same a ha
  src := fun _ _ h => h
  glob := fun _ _ h => h
  rest := fun _ _ h _ => h
  cur := rfl

theorem Bound.assq {W : Ghost} {lo e p a : Int} {xs us : List Int} {k : Nat} {x : Int} (h : Bound s lo e p xs us a)
    (hlo : ∀ q, lo ≤ q → ¬ W.chg q ∧ q ≠ c_nil) (hk : ∀ i : Nat, i < xs.length → W.loc (k + i) = e + i)
    (hs : ∀ i : Nat, i < xs.length → ¬ W.src (e + i))
    (ha : x ∉ xs → Assq s W x a ((ρ x).map W.loc)) : Assq s W x p ((bindAll xs k ρ x).map W.loc) := by
  induction h generalizing k with
  | nil => exact ha (by simp)
  | @cons e p y u a xs us hp ht hl he hev hc hb ih =>
    have hfp : FixedPair s W.chg p := ⟨(hlo p hl).2, hp, ht, (hlo p hl).1⟩
    have hk0 := hk 0 (by simp)
    simp only [Nat.add_zero, Int.natCast_zero, Int.add_zero] at hk0
    have hs0 := hs 0 (by simp)
    simp only [Int.natCast_zero, Int.add_zero] at hs0
    simp only [bindAll]
    by_cases hxy : x = y
    · rw [if_pos hxy, Option.map_some, hk0, ← he]
      refine .here hfp (by rw [he]; exact hev) (by rw [he, hc]) (by rw [he]; exact hs0) (by rw [he, hc]; exact hxy.symm)
    · rw [if_neg hxy]
      refine .next hfp (by rw [he]; exact hev) (by rw [he, hc]) (by rw [he]; exact hs0) (by rw [he, hc]; exact Ne.symm hxy)
        (ih (fun i hi => ?_) (fun i hi => ?_) (fun h => ha (by simp [hxy, h])))
      · have := hk (i + 1) (by simp; omega)
        rw [Nat.add_assoc, Nat.add_comm 1 i, this]
        omega
      · have := hs (i + 1) (by simp; omega)
        have e1 : e + 1 + (i : Int) = e + ((i + 1 : Nat) : Int) := by omega
        rw [e1]; exact this

theorem Bound.entry {lo e p a : Int} {xs us : List Int} (h : Bound s lo e p xs us a) {i : Nat} {u : Int}
    (hu : us[i]? = some u) : s.Valid (e + i) ∧ (s.cell (e + i)).tag = .pair ∧ (s.cell (e + i)).cdr = u := by
  induction h generalizing i with
  | nil => simp at hu
  | @cons e p y u' a xs us hp ht hl he hev hc hb ih =>
    cases i with
    | zero =>
      simp only [List.getElem?_cons_zero, Option.some.injEq] at hu
      subst hu
      simp only [Int.natCast_zero, Int.add_zero]
      rw [hc]
      exact ⟨hev, rfl, rfl⟩
    | succ i =>
      simp only [List.getElem?_cons_succ] at hu
      have := ih hu
      have e1 : e + 1 + (i : Int) = e + ((i + 1 : Nat) : Int) := by omega
      rw [e1] at this
      exact this

theorem bind_lt {xs : List Int} {k : Nat} {x : Int} {l m : Nat} (h : bindAll xs k ρ x = some l) (hm : k + xs.length ≤ m)
    (hρ : ∀ l, ρ x = some l → l < m) : l < m := by
  induction xs generalizing k with
  | nil => exact hρ l h
  | cons y ys ih =>
    simp only [bindAll] at h
    simp only [List.length_cons] at hm
    split at h
    · cases h; omega
    · exact ih h (by omega)

theorem Spec.IsEnv.except {N : Idents} {r : Int} (he : IsEnv s W N r ρ) (xs : List Int) : IsEnv s W (N.except xs) r ρ :=
  fun x hx => he x hx.1

theorem bind_mem {xs : List Int} {k : Nat} {x : Int} {l : Nat} (hx : x ∈ xs) (h : bindAll xs k ρ x = some l) : l < k + xs.length := by
  induction xs generalizing k with
  | nil => cases hx
  | cons y ys ih =>
    simp only [bindAll] at h
    simp only [List.length_cons]
    split at h
    · cases h; omega
    · next hne =>
      have := ih ((List.mem_cons.1 hx).resolve_left hne) h
      omega

/-- Binding parameters: the new locations and the new scope. -/
theorem bind_ok {p a : Int} {xs us : List Int} {ps : List Value} (hw : World s W mes σ) (hg : Grow s s') (hm : s'.m0 = s.m0)
    (hb : Bound s' (s.free + ps.length) s.free p xs us a) (hfree : s.free + 2 * ps.length ≤ s'.free)
    (ha : Args s W mes us ps) :
    World s' (W.bind s.free ps.length) mes { σ with vals := σ.vals ++ ps } ∧
    ∀ (N : Idents) (ρ : Locals), IsEnv s W (N.except xs) a ρ →
      IsEnv s' (W.bind s.free ps.length) N p (bindAll xs σ.vals.length ρ) := by
  have hl := bind_later (W := W) hg ps.length
  have hlu := ha.length
  have hlx := hb.length
  have hcl : s.free < s'.free ∨ ps.length = 0 := by omega
  constructor
  · have hw' := hw.grow hg hm
    have hloc : ∀ l, l < W.count → (W.bind s.free ps.length).loc l = W.loc l := hl.loc
    have hnew : ∀ i : Nat, (W.bind s.free ps.length).loc (W.count + i) = s.free + i := by
      intro i
      simp only [Ghost.bind]
      rw [if_neg (by omega)]
      omega
    refine ⟨hw'.base, hw'.tags, hw'.begin, ?_, ?_, ?_, ?_, ?_, ?_, ?_, ?_, ?_, hw.glob, fun b hb => .inl (hw.source b hb), ?_⟩
    · simp [Ghost.bind, hw.count]
    · rintro b (h | h)
      · exact hw'.below b h
      · omega
    · intro l hlt
      by_cases h : l < W.count
      · rw [hloc l h]; exact .inl (hw.chg l h)
      · obtain ⟨i, rfl⟩ : ∃ i, l = W.count + i := ⟨l - W.count, by omega⟩
        simp only [Ghost.bind] at hlt
        rw [hnew]
        exact .inr (by omega)
    · have hold : ∀ l, l < W.count → W.loc l < s.free := fun l h => (hw.pair l h).1.2
      intro l l' h1 h2 e
      simp only [Ghost.bind] at h1 h2
      by_cases g1 : l < W.count <;> by_cases g2 : l' < W.count
      · rw [hloc l g1, hloc l' g2] at e; exact hw.inj l l' g1 g2 e
      · have := hold l g1
        simp only [Ghost.bind, if_pos g1, if_neg g2] at e; omega
      · have := hold l' g2
        simp only [Ghost.bind, if_neg g1, if_pos g2] at e; omega
      · simp only [Ghost.bind, if_neg g1, if_neg g2] at e; omega
    · intro l hlt
      by_cases h : l < W.count
      · rw [hloc l h]; exact hw'.pair l h
      · obtain ⟨i, rfl⟩ : ∃ i, l = W.count + i := ⟨l - W.count, by omega⟩
        simp only [Ghost.bind] at hlt
        rw [hnew]
        obtain ⟨u, hu⟩ : ∃ u, us[i]? = some u := ⟨us[i]'(by omega), by simp⟩
        have := hb.entry hu
        exact ⟨this.1, this.2.1⟩
    · intro l v hv
      by_cases h : l < σ.vals.length
      · rw [List.getElem?_append_left h] at hv
        rw [← hw.count] at h
        rw [hloc l h, hg.same _ (hw.pair l h).1.2]
        exact (hw.holds l v hv).later hl
      · obtain ⟨i, rfl⟩ : ∃ i, l = W.count + i := ⟨l - W.count, by have := hw.count; omega⟩
        rw [List.getElem?_append_right (by omega), ← hw.count, Nat.add_sub_cancel_left] at hv
        obtain ⟨u, hu, huv⟩ := ha.get hv
        rw [hnew, (hb.entry hu).2.2]
        exact huv.later hl
    · obtain ⟨m1, m2, m3, m4, m5, m6, m7⟩ := hw.module
      have e1 := hl.keep m1 m4
      have e2 := hl.keep m5 m7
      rw [hm, e1, e2]
      exact ⟨hl.valid m1, m2, m3, hl.fixed m1 m4, hl.valid m5, m6, hl.fixed m5 m7⟩
    · obtain ⟨n, H, g1, g2⟩ := hw.table
      obtain ⟨m1, m2, m3, m4, m5, m6, m7⟩ := hw.module
      refine ⟨n, H, ?_, fun x => ?_⟩
      · rw [hm, hl.keep m1 m4, hl.keep m5 m7]
        exact g1.later hl (fun i hi => hg.same _ (g1.bvalid i hi).2)
      · rw [g2]
        show (σ.globals x).map _ = (σ.globals x).map _
        cases h : σ.globals x with
        | none => rfl
        | some l => simp only [Option.map_some]; rw [hloc l (hw.global x l h)]
    · intro x l h
      have := hw.global x l h
      simp only [Ghost.bind]
      omega
    · intro l hlt hs
      by_cases h : l < W.count
      · rw [hloc l h] at hs; exact hw.lsrc l h hs
      · obtain ⟨i, rfl⟩ : ∃ i, l = W.count + i := ⟨l - W.count, by omega⟩
        rw [hnew] at hs
        have := hw.below _ (hw.source _ hs)
        omega
  · intro N ρ he x hx
    refine ⟨hb.assq (fun q hq => ?_) (fun i hi => ?_) (fun i hi hc => ?_) (fun h => ((he.later hl) x ⟨hx, h⟩).1), fun l hlt => ?_⟩
    · refine ⟨?_, ?_⟩
      · rintro (h | h)
        · have := hw.below q h; omega
        · omega
      · have := hw.base; simp only [c_symbol_max, c_nil] at *; omega
    · simp only [Ghost.bind]
      rw [← hw.count, if_neg (by omega)]
      omega
    · have := hw.below _ (hw.source _ hc)
      omega
    · by_cases h : x ∈ xs
      · have := bind_mem h hlt
        simp [Ghost.bind, hw.count]
        omega
      · refine bind_lt hlt ?_ ((he.later hl) x ⟨hx, h⟩).2
        simp [Ghost.bind, hw.count]
        omega

end Mes
