import Verif.Proof.Math
namespace Mes
open Res Spec

/-- The pairs at the addresses `as`, linked by their cdrs, from `p` to `q`. -/
inductive Chain (s : St) : Int → List Int → Int → Prop
  | nil (p : Int) : Chain s p [] p
  | cons {p q : Int} {as : List Int} (hne : p ≠ c_nil) (hv : s.Valid p) (ht : (s.cell p).tag = .pair)
      (h : Chain s (s.cell p).cdr as q) : Chain s p (p :: as) q

variable {s s' : St} {P : Int → Prop}

/-- The cars of the cells `as`. -/
abbrev cars (s : St) (as : List Int) : List Int := as.map (fun a => (s.cell a).car)

theorem Chain.seg {p q : Int} {as : List Int} (h : Chain s p as q) : Seg s p (cars s as) q := by
  induction h with
  | nil p => exact .nil p
  | cons hne hv ht _ ih => exact .cons hne hv ht ih

theorem Chain.isList {p : Int} {as : List Int} (h : Chain s p as c_nil) : IsList s p (cars s as) := by
  generalize hq : c_nil = q at h
  induction h with
  | nil p => subst hq; exact .nil
  | cons hne hv ht _ ih => exact .cons hne hv ht rfl (ih hq)

theorem Spec.ListOf.chain {α : Type} {R : Int → α → Prop} {p : Int} {xs : List α} (h : ListOf s R p xs) :
    ∃ as, Chain s p as c_nil ∧ as.length = xs.length := by
  induction h with
  | nil => exact ⟨[], .nil _, rfl⟩
  | cons hne hv ht hx _ ih =>
    obtain ⟨as, h1, h2⟩ := ih
    exact ⟨_, .cons hne hv ht h1, by simp [h2]⟩

theorem Spec.IsList.chain {p : Int} {xs : List Int} (h : IsList s p xs) : ∃ as, Chain s p as c_nil ∧ cars s as = xs := by
  induction h with
  | nil => exact ⟨[], .nil _, rfl⟩
  | cons hne hv ht hx _ ih =>
    obtain ⟨as, h1, h2⟩ := ih
    exact ⟨_, .cons hne hv ht h1, by simp [h2, hx]⟩

theorem Chain.valid {p q : Int} {as : List Int} (h : Chain s p as q) : ∀ a ∈ as, s.Valid a ∧ a ≠ c_nil := by
  induction h with
  | nil p => simp
  | cons hne hv ht _ ih =>
    intro a ha
    rcases List.mem_cons.1 ha with rfl | ha
    · exact ⟨hv, hne⟩
    · exact ih a ha

/-- A chain that ends in `()` is determined by its start. -/
theorem Chain.unique {p : Int} {as bs : List Int} (h : Chain s p as c_nil) (h' : Chain s p bs c_nil) : as = bs := by
  induction as generalizing p bs with
  | nil =>
    cases h
    cases h' with
    | nil => rfl
    | cons hne => exact absurd rfl hne
  | cons a as ih =>
    cases h with
    | cons hne hv ht h =>
      cases h' with
      | nil => exact absurd rfl hne
      | cons _ _ _ h' => rw [ih h h']

theorem Chain.from_mem {p q : Int} {as : List Int} (h : Chain s p as q) {a : Int} (ha : a ∈ as) :
    ∃ bs cs, as = bs ++ a :: cs ∧ Chain s a (a :: cs) q := by
  induction h with
  | nil => simp at ha
  | @cons p q as hne hv ht h ih =>
    by_cases e : a = p
    · subst e; exact ⟨[], as, rfl, .cons hne hv ht h⟩
    · obtain ⟨bs, cs, h1, h2⟩ := ih (by simpa [e] using ha)
      exact ⟨p :: bs, cs, by simp [h1], h2⟩

theorem Chain.nodup {p : Int} {as : List Int} (h : Chain s p as c_nil) : as.Nodup := by
  generalize hq : c_nil = q at h
  induction h with
  | nil => simp
  | @cons p q as hne hv ht h ih =>
    subst hq
    refine List.nodup_cons.2 ⟨fun hm => ?_, ih rfl⟩
    obtain ⟨bs, cs, h1, h2⟩ := h.from_mem hm
    have h3 := Chain.unique h2 (.cons hne hv ht h)
    have := congrArg List.length h3
    rw [h1] at this; simp at this; omega

theorem Chain.pairOf {p q : Int} {as : List Int} (h : Chain s p as q) : ∀ a ∈ as, PairOf s p a := by
  induction h with
  | nil => simp
  | cons hne hv ht _ ih =>
    intro a ha
    rcases List.mem_cons.1 ha with rfl | ha
    · exact .here hne
    · exact .next hne (ih a ha)

/-- A chain survives a change outside its cells. -/
theorem Chain.frame {p q : Int} {as : List Int} (h : Chain s p as q) (hf : Frame P s s') (hp : ∀ a ∈ as, ¬ P a) :
    Chain s' p as q := by
  induction h with
  | nil => exact .nil _
  | @cons p q as hne hv ht _ ih =>
    have e := hf.same p hv.2 (hp p (by simp))
    exact .cons hne (hf.valid hv) (by rw [e]; exact ht) (by rw [e]; exact ih (fun a ha => hp a (by simp [ha])))

theorem Chain.ext {p q : Int} {as : List Int} (h : Chain s p as q) (hf : Ext s s') : Chain s' p as q :=
  h.frame hf (fun _ _ => id)

theorem cars_frame {p q : Int} {as : List Int} (h : Chain s p as q) (hf : Frame P s s') (hp : ∀ a ∈ as, ¬ P a) :
    cars s' as = cars s as :=
  List.map_congr_left fun a ha => by rw [hf.same a (h.valid a ha).1.2 (hp a ha)]

theorem Chain.append {p q r : Int} {as bs : List Int} (h : Chain s p as q) (h' : Chain s q bs r) :
    Chain s p (as ++ bs) r := by
  induction h with
  | nil => exact h'
  | cons hne hv ht _ ih => exact .cons hne hv ht (ih h')

theorem Chain.seg_append {p q : Int} {xs ys : List Int} (h : Seg s p xs q) (h' : IsList s q ys) :
    IsList s p (xs ++ ys) := by
  induction h with
  | nil => exact h'
  | cons hne hv ht _ ih => exact .cons hne hv ht rfl (ih h')

/-! ### length -/

theorem lengthLoop_ok {α : Type} {R : Int → α → Prop} {fuel : Nat} {x : Int} {xs : List α} (h : ListOf s R x xs)
    (hf : xs.length < fuel) (n : Int) : lengthLoop s fuel n x = ok (n + xs.length) := by
  induction h generalizing fuel n with
  | nil => obtain ⟨fuel, rfl⟩ : ∃ f, fuel = f + 1 := ⟨fuel - 1, by simp at hf; omega⟩; simp [lengthLoop]
  | cons hne hv ht hx _ ih =>
    obtain ⟨fuel, rfl⟩ : ∃ f, fuel = f + 1 := ⟨fuel - 1, by simp at hf; omega⟩
    simp only [lengthLoop, if_neg hne, St.rd_ok hv, ht, ok_bind, ne_eq, not_true_eq_false, if_false]
    rw [ih (by simpa using hf)]
    simp; omega

theorem length_ok {α : Type} {R : Int → α → Prop} {fuel : Nat} {x : Int} {xs : List α} (h : ListOf s R x xs)
    (hf : xs.length < fuel) : length__ s fuel x = ok (xs.length : Int) := by
  rw [length__, lengthLoop_ok h hf]; simp

theorem lengthLoop_improper {fuel : Nat} {x : Int} {xs : List Int} (h : IsImproper s x xs)
    (hf : xs.length < fuel) (n : Int) : lengthLoop s fuel n x = ok (-1) := by
  induction h generalizing fuel n with
  | nil hne hv ht =>
    obtain ⟨fuel, rfl⟩ : ∃ f, fuel = f + 1 := ⟨fuel - 1, by simp at hf; omega⟩; simp [lengthLoop, hne, hv, ht]
  | cons hne hv ht _ ih =>
    obtain ⟨fuel, rfl⟩ : ∃ f, fuel = f + 1 := ⟨fuel - 1, by simp at hf; omega⟩
    simp only [lengthLoop, if_neg hne, St.rd_ok hv, ht, ok_bind, ne_eq, not_true_eq_false, if_false]
    exact ih (by simpa using hf) _

/-! ### Copying in reverse -/

theorem revOnto_ok {fuel : Nat} {s : St} {x r : Int} {as : List Int} (h : Chain s x as c_nil) (hf : as.length < fuel)
    (hr : Room s as.length) :
    ∃ r' s' bs, revOnto fuel s x r = ok (r', s') ∧ Ext s s' ∧ Chain s' r' bs r ∧
      cars s' bs = (cars s as).reverse ∧ (∀ b ∈ bs, s.free ≤ b) ∧ s'.free = s.free + as.length := by
  generalize hq : c_nil = q at h
  induction as generalizing fuel s x r with
  | nil =>
    obtain ⟨fuel, rfl⟩ : ∃ f, fuel = f + 1 := ⟨fuel - 1, by simp at hf; omega⟩
    cases h
    exact ⟨r, s, [], by rw [revOnto, ← hq]; simp, Frame.refl .., .nil _, rfl, by simp, by simp⟩
  | cons a as ih =>
    obtain ⟨fuel, rfl⟩ : ∃ f, fuel = f + 1 := ⟨fuel - 1, by simp at hf; omega⟩
    cases h with
    | cons hne hv ht h =>
      simp only [List.length_cons, Int.natCast_add, Int.cast_ofNat_Int] at hr
      have hr1 : Room s 1 := hr.mono (by omega)
      have hext := push_ext s { tag := .pair, car := (s.cell a).car, cdr := r }
      have hv' := hext.valid hv
      obtain ⟨r', s', bs, h1, h2, h3, h4, h5, h6⟩ := ih (fuel := fuel)
        (s := s.push { tag := .pair, car := (s.cell a).car, cdr := r }) (r := s.free) 
        (by simpa using hf) (hr.push _) (h.ext hext)
      refine ⟨r', s', bs ++ [s.free], ?_, hext.trans h2, h3.append ?_, ?_, ?_, ?_⟩
      · rw [revOnto]
        simp only [if_neg hne, St.rd_ok hv, ok_bind, cons_ok hr1, St.cdr_ok hv',
          hext.same a hv.2 id]
        exact h1
      · have e := h2.same s.free (by simp; omega) id
        have hb := hr.base
        refine .cons ?_ (h2.valid (hr1.free_valid _)) ?_ ?_
        · simp only [c_symbol_max] at hb; simp only [c_nil]; omega
        · rw [e]; simp
        · rw [e]; simp; exact .nil _
      · have e := h2.same s.free (by simp; omega) id
        have hc : cars (s.push { tag := .pair, car := (s.cell a).car, cdr := r }) as = cars s as :=
          cars_frame h hext (fun _ _ => id)
        rw [hc] at h4
        simp only [cars, List.map_append, List.map_cons, List.map_nil, List.reverse_cons] at h4 ⊢
        rw [h4, e]; simp
      · intro b hb
        rcases List.mem_append.1 hb with hb | hb
        · have := h5 b hb; simp at this; omega
        · simp at hb; omega
      · simp at h6 ⊢; omega

/-! ### reverse! -/

theorem reverseXLoop_ok {fuel : Nat} {s : St} {x r : Int} {as : List Int} (h : Chain s x as c_nil)
    (hn : as.Nodup) (hf : as.length < fuel) :
    ∃ r' s', reverseXLoop fuel s x r = ok (r', s') ∧ Frame (· ∈ as) s s' ∧ Chain s' r' as.reverse r ∧
      (∀ a, (s'.cell a).car = (s.cell a).car ∧ (s'.cell a).tag = (s.cell a).tag) ∧ s'.free = s.free := by
  generalize hq : c_nil = q at h
  induction as generalizing fuel s x r with
  | nil =>
    obtain ⟨fuel, rfl⟩ : ∃ f, fuel = f + 1 := ⟨fuel - 1, by simp at hf; omega⟩
    cases h
    exact ⟨r, s, by rw [reverseXLoop, ← hq]; simp, Frame.refl .., .nil _, fun a => ⟨rfl, rfl⟩, rfl⟩
  | cons a as ih =>
    obtain ⟨fuel, rfl⟩ : ∃ f, fuel = f + 1 := ⟨fuel - 1, by simp at hf; omega⟩
    cases h with
    | cons hne hv ht h =>
      have hfr := upd_frame s a { s.cell a with cdr := r }
      have hx : a ∉ as := (List.nodup_cons.1 hn).1
      have h' : Chain (s.upd a { s.cell a with cdr := r }) (s.cell a).cdr as q :=
        h.frame hfr (fun b hb e => hx (e ▸ hb))
      obtain ⟨r', s', h1, h2, h3, h4, h5⟩ := ih (fuel := fuel) (r := a) (List.nodup_cons.1 hn).2 (by simpa using hf) h'
      refine ⟨r', s', ?_, (hfr.mono ?_).trans (h2.mono ?_), ?_, ?_, h5⟩
      · rw [reverseXLoop]
        simp only [if_neg hne, St.cdr_ok hv, ok_bind, St.setCdr, St.rd_ok hv, St.put_ok _ hv]
        exact h1
      · rintro b _ rfl; simp
      · intro b _ hb; simp [hb]
      · rw [List.reverse_cons]
        refine h3.append ?_
        have e := h2.same a hv.2 hx
        refine .cons hne (h2.valid hv) ?_ ?_
        · rw [e]; simp [ht]
        · rw [e]; simp; exact .nil _
      · intro b
        obtain ⟨ha, hb⟩ := h4 b
        rw [ha, hb, St.upd_cell]
        split
        · subst b; exact ⟨rfl, rfl⟩
        · exact ⟨rfl, rfl⟩

end Mes
