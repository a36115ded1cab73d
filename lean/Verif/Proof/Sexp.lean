import Verif.Proof.Tokens
/-
Reading a datum: `Written` texts are read as the datum they stand for.
-/
namespace Mes
open Res Spec

variable {E : Env} {s s' s'' : St} {w w' w'' : In} {H H' H'' : List (List Byte × Int)} {bs bs' rest g t r : List Byte} {c : Byte}
  {clear clear' : Bool} {A B A' B' l l' fuel : Nat} {P : Int → Prop} {d : Datum} {last : Bool}

/-- Number of pairs along the cdrs. -/
def Spec.Datum.spine : Datum → Nat
  | .pair _ d => 1 + d.spine
  | _ => 0

theorem Spec.Datum.spine_list (es : List Datum) : (Datum.list es).spine = es.length := by
  induction es with
  | nil => rfl
  | cons e es ih => simp only [Datum.list, Datum.spine, ih, List.length_cons]; omega

/-- The pairs, numbers and characters of the datum at `p` are different cells from `lo` up to `hi`. -/
inductive Fresh (s : St) : Int → Int → Int → Datum → Prop
  | other {lo hi p : Int} {d : Datum} (h : ∀ a b, d ≠ .pair a b) (hl : lo ≤ hi)
      (hn : ∀ n, d = .num n ∨ d = .chr n → lo ≤ p ∧ p < hi ∧ (s.cell p).car = 0) : Fresh s lo hi p d
  | pair {lo m m' hi p : Int} {a b : Datum} (ha : Fresh s lo m (s.cell p).car a) (hb : Fresh s m m' (s.cell p).cdr b) (hp : m' ≤ p)
      (hh : p < hi) : Fresh s lo hi p (.pair a b)

theorem Fresh.le {lo hi p : Int} (h : Fresh s lo hi p d) : lo ≤ hi := by
  induction h with
  | other _ hl _ => exact hl
  | pair _ _ hp hi ih1 ih2 => omega

theorem Fresh.mono {lo lo' hi hi' p : Int} (h : Fresh s lo hi p d) (hl : lo' ≤ lo) (hh : hi ≤ hi') : Fresh s lo' hi' p d := by
  induction h generalizing lo' hi' with
  | other h1 h2 h3 => exact .other h1 (by omega) (fun n hn => by have := h3 n hn; omega)
  | pair _ hb hp hi ih1 ih2 => exact .pair (ih1 hl (Int.le_refl _)) hb hp (by omega)

theorem Fresh.atom {lo hi p : Int} (hl : lo ≤ hi) (h : (∀ a b, d ≠ .pair a b) ∧ (∀ n, d ≠ .num n) ∧ ∀ n, d ≠ .chr n) : Fresh s lo hi p d :=
  .other h.1 hl (fun n hn => by rcases hn with hn | hn; exact absurd hn (h.2.1 n); exact absurd hn (h.2.2 n))

theorem Fresh.num {lo hi p n : Int} (h1 : lo ≤ p) (h2 : p < hi) (h : (s.cell p).car = 0) : Fresh s lo hi p (.num n) :=
  .other (by simp) (by omega) (fun _ _ => ⟨h1, h2, h⟩)

theorem Fresh.chr {lo hi p n : Int} (h1 : lo ≤ p) (h2 : p < hi) (h : (s.cell p).car = 0) : Fresh s lo hi p (.chr n) :=
  .other (by simp) (by omega) (fun _ _ => ⟨h1, h2, h⟩)

theorem Fresh.keep {lo hi p : Int} (h : Fresh s lo hi p d) (hf : Frame P s s') (hP : ∀ a, P a → a < lo) (hh : hi ≤ s.free) : Fresh s' lo hi p d := by
  induction h with
  | @other lo hi p d h1 h2 h3 =>
    refine .other h1 h2 (fun n hn => ?_)
    have := h3 n hn
    rw [hf.same p (by omega) (fun hc => by have := hP _ hc; omega)]
    exact this
  | @pair lo m m' hi p a b ha hb hp hi' ih1 ih2 =>
    have l1 := ha.le
    have l2 := hb.le
    have e := hf.same p (by omega) (fun hc => by have := hP _ hc; omega)
    exact .pair (m := m) (m' := m') (by rw [e]; exact ih1 hP (by omega)) (by rw [e]; exact ih2 (fun a ha => by have := hP a ha; omega) (by omega)) hp hi'

/-- The text is read as the datum, wherever it stands. -/
def DatumOk (E : Env) (d : Datum) (last : Bool) (t : List Byte) : Prop :=
  ∀ ⦃rest : List Byte⦄ ⦃s : St⦄ ⦃w : In⦄ ⦃H : List (List Byte × Int)⦄ ⦃clear : Bool⦄ ⦃fuel : Nat⦄, (last = true → Ends rest) →
    Reading E s w H ((t ++ rest).drop 1) clear → RoomFor E s (20 * t.length) (4 * t.length - 1) → 2 * t.length + 2 ≤ fuel →
    H.length + t.length < E.k →
    ∃ x s' w' H' A, readSexp E.k fuel s w (next (t ++ rest)) = ok (x, s', w') ∧ A + 4 + 3 * d.spine ≤ 20 * t.length ∧
      Run E s H s' w' H' rest false A (4 * t.length - 1) t.length ∧ (Den s' H' E.touch x d ∧ Fresh s' s.free s'.free x d) ∧ x ≠ c_dot ∧ d.spine ≤ t.length

/-- The text is read as the inside of a list. -/
def TailOk (E : Env) (d : Datum) (t : List Byte) : Prop :=
  ∀ ⦃rest : List Byte⦄ ⦃s : St⦄ ⦃w : In⦄ ⦃H : List (List Byte × Int)⦄ ⦃clear : Bool⦄ ⦃fuel : Nat⦄,
    Reading E s w H ((t ++ rest).drop 1) clear → RoomFor E s (20 * t.length) (4 * t.length) → 2 * t.length + 2 ≤ fuel →
    H.length + t.length < E.k →
    ∃ x s' w' H' A, readList E.k fuel s w (next (t ++ rest)) = ok (x, s', w') ∧ A + 3 * d.spine ≤ 20 * t.length ∧
      Run E s H s' w' H' rest false A (4 * t.length) t.length ∧ (Den s' H' E.touch x d ∧ Fresh s' s.free s'.free x d) ∧ d.spine ≤ t.length

/-- The space is skipped in front of a datum. -/
def GapOk (E : Env) (g : List Byte) : Prop :=
  ∀ ⦃rest : List Byte⦄ ⦃s : St⦄ ⦃w : In⦄ ⦃H : List (List Byte × Int)⦄ ⦃clear : Bool⦄ ⦃fuel : Nat⦄,
    Reading E s w H ((g ++ rest).drop 1) clear → RoomFor E s (20 * g.length) (4 * g.length) → 2 * g.length < fuel →
    H.length + g.length < E.k →
    ∃ s' w' H' fuel', readSexp E.k fuel s w (next (g ++ rest)) = readSexp E.k fuel' s' w' (next rest) ∧ fuel ≤ fuel' + 2 * g.length ∧
      Run E s H s' w' H' (rest.drop 1) false (20 * g.length) (4 * g.length) g.length

/-! ### The first character of a datum -/

theorem code_ne {c : Byte} {n : Nat} (h : c ≠ (no_index (OfNat.ofNat n))) (hn : n < 256) :
    ¬ code c = (no_index (OfNat.ofNat n)) := fun e => h (by
  have e : code c = (n : Int) := e
  rw [byte_lit]; unfold code at e; omega)

theorem not_delim {c : Byte} (h : ¬ IsDelimiter c) : C.isspace (code c) = false ∧ c ≠ 59 ∧ c ≠ 34 ∧ c ≠ 40 ∧ c ≠ 41 ∧ c ≠ 32 ∧ c ≠ 9 ∧ c ≠ 10 ∧ c ≠ 12 := by
  unfold IsDelimiter at h
  simp only [not_or] at h
  refine ⟨?_, h.2.2.2.2.2.2.2.2.2, h.2.2.2.2.2.2.1, h.2.2.2.2.2.2.2.1, h.2.2.2.2.2.2.2.2.1, h.2.2.2.2.2.1, h.1, h.2.1, h.2.2.2.1⟩
  rw [Bool.eq_false_iff]
  unfold C.isspace code
  simp only [byte_lit, ne_eq, Bool.or_eq_true, decide_eq_true_eq] at h ⊢
  omega

theorem stop_hash {b : Byte} (h1 : b ≠ 33) (h2 : b ≠ 124) (r rest : List Byte) : Stop 35 (b :: r ++ rest) :=
  ⟨by decide, by decide, fun _ => ⟨by rw [List.cons_append, next_cons]; exact code_ne h1 (by decide),
    by rw [List.cons_append, next_cons]; exact code_ne h2 (by decide)⟩⟩

theorem stop_word {b : Byte} (h : ¬ IsDelimiter b) (h' : b ≠ 35) (rest : List Byte) : Stop b rest :=
  ⟨(not_delim h).1, (not_delim h).2.1, fun e => absurd e h'⟩

theorem radixes_ok : ∀ e ∈ radixes, e.1 ≠ 33 ∧ e.1 ≠ 124 := by decide

theorem quotes_start : ∀ q ∈ quotes, (∃ b, q.1 = [b] ∧ ¬ IsDelimiter b ∧ b ≠ 35) ∨ (∃ b r, q.1 = 35 :: b :: r ∧ b ≠ 33 ∧ b ≠ 124) ∨
    (∃ b c, q.1 = [b, c] ∧ ¬ IsDelimiter b ∧ b ≠ 35) := by
  intro q hq
  simp only [quotes, List.mem_cons, List.mem_nil_iff, or_false] at hq
  rcases hq with rfl | rfl | rfl | rfl | rfl | rfl | rfl | rfl
  · exact .inl ⟨_, rfl, by decide, by decide⟩
  · exact .inl ⟨_, rfl, by decide, by decide⟩
  · exact .inl ⟨_, rfl, by decide, by decide⟩
  · exact .inr (.inr ⟨_, _, rfl, by decide, by decide⟩)
  · exact .inr (.inl ⟨_, _, rfl, by decide, by decide⟩)
  · exact .inr (.inl ⟨_, _, rfl, by decide, by decide⟩)
  · exact .inr (.inl ⟨_, _, rfl, by decide, by decide⟩)
  · exact .inr (.inl ⟨_, _, rfl, by decide, by decide⟩)

/-- A datum begins with a character that ends white space, and is not a closing parenthesis. -/
theorem Spec.Written.start {m : Nat} (h : Written m (.datum d last) t) :
    ∃ b r, t = b :: r ∧ b ≠ 41 ∧ ∀ rest, Stop b (r ++ rest) := by
  cases h with
  | bool b => exact ⟨35, _, rfl, by decide, fun rest => stop_hash (by cases b <;> decide) (by cases b <;> decide) [] rest⟩
  | @num ds sign hds hd hl hv =>
    obtain ⟨b, ds, rfl⟩ := List.exists_cons_of_ne_nil hds
    have hb := isDec_not_delimiter (hd b (by simp))
    have hb' := isDec_val (hd b (by simp))
    match sign with
    | none =>
      exact ⟨b, ds, rfl, (not_delim hb).2.2.2.2.1, fun rest => stop_word hb (by rintro rfl; have : code 35 = 35 := rfl; omega) _⟩
    | some true => exact ⟨45, b :: ds, rfl, by decide, fun rest => stop_word (by decide) (by decide) _⟩
    | some false => exact ⟨43, b :: ds, rfl, by decide, fun rest => stop_word (by decide) (by decide) _⟩
  | @radix c base ds neg hc hds hd hv =>
    obtain ⟨h1, h2⟩ := radixes_ok _ hc
    refine ⟨35, c :: ((if neg then [45] else []) ++ ds), by simp, by decide, fun rest => stop_hash h1 h2 _ _⟩
  | chr b => exact ⟨35, [92, b], rfl, by decide, fun rest => stop_hash (by decide) (by decide) _ _⟩
  | chrName h => exact ⟨35, _, rfl, by decide, fun rest => stop_hash (by decide) (by decide) _ _⟩
  | str h hl => exact ⟨34, _, rfl, by decide, fun rest => ⟨by decide, by decide, fun e => absurd e (by decide)⟩⟩
  | sym h =>
    obtain ⟨b, r, rfl⟩ := List.exists_cons_of_ne_nil h.nonempty
    have := (h.chars b (by simp)).1
    exact ⟨b, r, rfl, (not_delim this).2.2.2.2.1, fun rest => stop_word this (h.first b r rfl).1 _⟩
  | kw h h' => exact ⟨35, _, rfl, by decide, fun rest => stop_hash (by decide) (by decide) _ _⟩
  | @quote p name g t a d last hq h1 h2 hat =>
    rcases quotes_start _ hq with ⟨b, e, n1, n2⟩ | ⟨b, r, e, n1, n2⟩ | ⟨b, b', e, n1, n2⟩ <;> simp only at e <;> subst e
    · exact ⟨b, _, rfl, (not_delim n1).2.2.2.2.1, fun rest => stop_word n1 n2 _⟩
    · exact ⟨35, b :: (r ++ g ++ t), rfl, by decide, fun rest => stop_hash n1 n2 _ _⟩
    · exact ⟨b, _, rfl, (not_delim n1).2.2.2.2.1, fun rest => stop_word n1 n2 _⟩
  | list h => exact ⟨40, _, rfl, by decide, fun rest => ⟨by decide, by decide, fun e => absurd e (by decide)⟩⟩
  | vec h => exact ⟨35, 40 :: _, rfl, by decide, fun rest => stop_hash (by decide) (by decide) _ _⟩

theorem Spec.Written.pos {m : Nat} (h : Written m (.datum d last) t) : 1 ≤ t.length := by
  obtain ⟨b, r, rfl, -⟩ := h.start; simp

/-! ### Elements of vectors -/

theorem Spec.Den.val {x : Int} (h : Den s H E.touch x d) (h0 : Reading E s w H bs clear) :
    ∃ v, ValAt s x v ∧ ∀ s' q, Ext s s' → EntryAt s' q v → Den s' H E.touch (target s' q) d := by
  have hfix : ∀ a, c_nil ≤ a → a < 46 → s.Valid a ∧ Solid (s.cell a).tag := fun a h1 h2 => by
    have hb := h0.names.base
    simp only [c_symbol_max, c_nil] at hb h1
    refine ⟨⟨by omega, by omega⟩, ?_⟩
    rw [h0.names.fixed a (by simp only [c_nil]; omega) (by simp only [c_symbol_max]; omega), if_pos h2]
    decide
  have keep : ∀ s', Ext s s' → Den s' H E.touch x d := fun s' hx =>
    h.keep hx.frame (fun a hv ha => h0.touch_tag hv ha) (Grown.refl H)
  have obj : s.Valid x → Solid (s.cell x).tag → ∃ v, ValAt s x v ∧ ∀ s' q, Ext s s' → EntryAt s' q v → Den s' H E.touch (target s' q) d :=
    fun hv hs => ⟨.obj x, ⟨rfl, hv, hs⟩, fun s' q hx ⟨_, h2, h3, _⟩ => by
      unfold target; rw [if_pos h2, h3]; exact keep s' hx⟩
  cases h with
  | nil => exact obj (hfix _ (by decide) (by decide)).1 (hfix _ (by decide) (by decide)).2
  | bool b => cases b <;> exact obj (hfix _ (by decide) (by decide)).1 (hfix _ (by decide) (by decide)).2
  | num h =>
    refine ⟨.num _, h, fun s' q _ hq => ?_⟩
    have hq : IsNum s' q _ := hq
    unfold target; rw [if_neg (by simp [hq.tag])]; exact .num hq
  | chr h hr =>
    refine ⟨.chr _, ⟨h, hr⟩, fun s' q _ hq => ?_⟩
    obtain ⟨hq, hr⟩ : IsChar s' q _ ∧ _ := hq
    unfold target; rw [if_neg (by simp [hq.tag])]; exact .chr hq hr
  | str h => exact obj h.valid (by rw [h.tag]; decide)
  | sym h ht hl hne => exact obj h.valid (by rcases ht with h | h <;> rw [h] <;> decide)
  | kw h ht => exact obj h.valid (by rw [ht]; decide)
  | pair hv ht => exact obj hv (by rw [ht]; decide)
  | vec hv ht => exact obj hv (by rw [ht]; decide)

theorem den_list {es : List Datum} : ∀ {x : Int}, Den s H E.touch x (.list es) → Reading E s w H bs clear →
    ∃ vs, ListOf s (ValAt s) x vs ∧ vs.length = es.length ∧ ∀ (i : Nat) (hi : i < es.length) v, vs[i]? = some v → ∀ s' q, Ext s s' →
      EntryAt s' q v → Den s' H E.touch (target s' q) es[i] := by
  induction es with
  | nil =>
    intro x h h0
    cases h
    exact ⟨[], .nil, rfl, fun i hi => by simp at hi⟩
  | cons e es ih =>
    intro x h h0
    cases h with
    | pair hv ht ha hd =>
      obtain ⟨v, v1, v2⟩ := ha.val h0
      obtain ⟨vs, l1, l2, l3⟩ := ih hd h0
      refine ⟨v :: vs, .cons ?_ hv ht v1 l1, by simp [l2], fun i hi v' hv' => ?_⟩
      · rintro rfl
        have := h0.names.fixed c_nil (by decide) (by decide)
        rw [if_pos (by decide), ht] at this; cases this
      · cases i with
        | zero => simp only [List.getElem?_cons_zero, Option.some.injEq] at hv'; subst hv'; exact v2
        | succ i => simp only [List.getElem?_cons_succ] at hv'; exact l3 i (by simpa using hi) v' hv'

/-! ### Spaces -/

theorem GapOk.none : GapOk E [] := by
  intro rest s w H clear fuel h hr hf hk
  exact ⟨s, w, H, fuel, rfl, by omega, h.weaken.run⟩

theorem drop_one_cons (b : Byte) (l : List Byte) : (b :: l).drop 1 = l := rfl

theorem GapOk.blank {b : Byte} (hb : b = 32 ∨ b = 9 ∨ b = 10 ∨ b = 12) (ih : GapOk E g) : GapOk E (b :: g) := by
  intro rest s w H clear fuel h hr hf hk
  simp only [List.cons_append, drop_one_cons, List.length_cons] at h hf hk hr ⊢
  obtain ⟨fuel, rfl⟩ : ∃ f, fuel = f + 1 := ⟨fuel - 1, by omega⟩
  obtain ⟨s1, w1, r1, r2, r3⟩ := h.take hr (by omega)
  obtain ⟨s2, w2, H2, f2, k1, k2, k3⟩ := ih r2.rd (r3.room hr (by omega) (by omega)) (fuel := fuel) (by omega) (by omega)
  refine ⟨s2, w2, H2, f2, ?_, by omega, (r3.trans k3).weaken (by omega) (by omega) (by omega)⟩
  rw [← k1, next_cons, readSexp]
  have hc : code b = 32 ∨ code b = 9 ∨ code b = 10 ∨ code b = 12 := by
    rcases hb with rfl | rfl | rfl | rfl <;> decide
  rw [if_neg (by unfold eof; omega), if_neg (by omega), if_pos hc, r1, ok_bind]

theorem GapOk.line {cs : List Byte} (hcs : 10 ∉ cs) (ih : GapOk E g) : GapOk E (59 :: cs ++ 10 :: g) := by
  intro rest s w H clear fuel h hr hf hk
  simp only [List.cons_append, List.append_assoc, drop_one_cons, List.length_cons, List.length_append] at h hf hk hr ⊢
  obtain ⟨fuel, rfl⟩ : ∃ f, fuel = f + 2 := ⟨fuel - 2, by omega⟩
  obtain ⟨s1, w1, r1, r2⟩ := readLineComment_ok (c := 59) (fuel := fuel + 1) cs hcs (by decide) (by omega) hr (by omega) h
  obtain ⟨s2, w2, t1, t2, t3⟩ := r2.rd.take (r2.room hr (A₂ := 0) (B₂ := 1) (by omega) (by omega)) (by omega)
  have R := r2.trans t3
  obtain ⟨s3, w3, H3, f3, k1, k2, k3⟩ := ih t2.rd (R.room hr (by omega) (by omega)) (fuel := fuel) (by omega) (by omega)
  refine ⟨s3, w3, H3, f3, ?_, by omega, (R.trans k3).weaken (by omega) (by omega) (by omega)⟩
  have e59 : code 59 = 59 := rfl
  rw [e59] at r1
  rw [next_cons, readSexp]
  simp only [e59, if_neg (show ¬ (59 : Int) = eof by decide), if_true, r1, ok_bind]
  rw [readSexp, if_neg (show ¬ (10 : Int) = eof by decide), if_neg (show ¬ (10 : Int) = 59 by decide),
    if_pos (show (10 : Int) = 32 ∨ (10 : Int) = 9 ∨ (10 : Int) = 10 ∨ (10 : Int) = 12 by decide), t1]
  simp only [ok_bind, k1]

theorem sexp_hash : readSexp E.k (fuel + 1) s w (code 35) = (do
    let (c, s, w) ← readchar s w E.k
    readHash E.k fuel s w c) := by
  rw [readSexp]
  have e35 : code 35 = 35 := rfl
  simp only [e35, if_neg (show ¬ (35 : Int) = eof by decide), if_neg (show ¬ (35 : Int) = 59 by decide),
    if_neg (show ¬ ((35 : Int) = 32 ∨ (35 : Int) = 9 ∨ (35 : Int) = 10 ∨ (35 : Int) = 12) by decide),
    if_neg (show ¬ (35 : Int) = 40 by decide), if_neg (show ¬ (35 : Int) = 41 by decide), if_true]

theorem GapOk.block {t : Byte} {cs : List Byte} (ht : t = 33 ∨ t = 124) (hcs : ¬ [t, 35] <:+: cs ++ [t]) (ih : GapOk E g) :
    GapOk E (35 :: t :: cs ++ t :: 35 :: g) := by
  intro rest s w H clear fuel h hr hf hk
  simp only [List.cons_append, List.append_assoc, drop_one_cons, List.length_cons, List.length_append] at h hf hk hr ⊢
  obtain ⟨fuel, rfl⟩ : ∃ f, fuel = f + 2 := ⟨fuel - 2, by omega⟩
  have t35 : t ≠ 35 := by rcases ht with rfl | rfl <;> decide
  obtain ⟨s1, w1, r1, r2⟩ := h.read hr (by omega)
  obtain ⟨c', r', hr'⟩ : ∃ c' r', cs ++ t :: 35 :: (g ++ rest) = c' :: r' := by cases cs <;> simp
  obtain ⟨s2, w2, q1, q2⟩ := Reading.read (c := c') (bs := r') (by rw [← hr']; exact r2.rd)
    (r2.room hr (A₂ := 0) (B₂ := 1) (by omega) (by omega)) (by omega)
  have R2 := r2.trans q2
  obtain ⟨s3, w3, b1, b2⟩ := readBlockComment_ok (fuel := fuel) (A := 0) (B := cs.length + 1) cs hr'.symm t35 hcs (by omega)
    (R2.room hr (by omega) (by omega)) (Nat.le_refl _) q2.rd
  have R3 := R2.trans b2
  obtain ⟨s4, w4, t1, t2, t3⟩ := b2.rd.take (R3.room hr (A₂ := 0) (B₂ := 1) (by omega) (by omega)) (by omega)
  have R4 := R3.trans t3
  obtain ⟨s5, w5, H5, f5, k1, k2, k3⟩ := ih t2.rd (R4.room hr (by omega) (by omega)) (fuel := fuel) (by omega) (by omega)
  refine ⟨s5, w5, H5, f5, ?_, by omega, (R4.trans k3).weaken (by omega) (by omega) (by omega)⟩
  have ht' : code t = 33 ∨ code t = 124 := by rcases ht with rfl | rfl <;> decide
  rw [next_cons, sexp_hash, r1, ok_bind]
  simp only [readHash, if_pos ht', q1, ok_bind, b1, t1, k1]

theorem GapOk.skip {g1 t g2 : List Byte} (ih1 : GapOk E g1) (hp : 1 ≤ t.length) (ih2 : DatumOk E d last t) (hs : last = true → g2 ≠ [] ∧ Ends g2)
    (ih3 : GapOk E g2) : GapOk E (35 :: 59 :: g1 ++ t ++ g2) := by
  intro rest s w H clear fuel h hr hf hk
  simp only [List.cons_append, List.append_assoc, drop_one_cons, List.length_cons, List.length_append] at h hf hk hr ⊢
  obtain ⟨fuel, rfl⟩ : ∃ f, fuel = f + 2 := ⟨fuel - 2, by omega⟩
  obtain ⟨s1, w1, r1, r2⟩ := h.read hr (by omega)
  obtain ⟨s2, w2, q1, q2, q3⟩ := r2.rd.take (r2.room hr (A₂ := 0) (B₂ := 1) (by omega) (by omega)) (by omega)
  have R2 := r2.trans q3
  have hne1 : t ++ (g2 ++ rest) ≠ [] := by intro e; simp at e; simp [e.1] at hp
  obtain ⟨s3, w3, H3, f3, k1, k2, k3⟩ := ih1 q2.rd (R2.room hr (by omega) (by omega)) (fuel := fuel) (by omega) (by omega)
  have R3 := R2.trans k3
  have hl3 := R3.length
  obtain ⟨x, s4, w4, H4, A4, m1, m2, m3, -, -, -⟩ := ih2 (rest := g2 ++ rest) (fun hl => by
      obtain ⟨n1, n2⟩ := hs hl
      cases g2 with
      | nil => exact absurd rfl n1
      | cons b g2 => exact n2) k3.rd (R3.room hr (by omega) (by omega)) (fuel := f3) (by omega) (by omega)
  have R4 := R3.trans m3
  obtain ⟨s5, w5, t1, t2, t3⟩ := m3.rd.take (R4.room hr (A₂ := 0) (B₂ := 1) (by omega) (by omega)) (by omega)
  have R5 := R4.trans t3
  have hl5 := R5.length
  obtain ⟨s6, w6, H6, f6, n1, n2, n3⟩ := ih3 t2.rd (R5.room hr (by omega) (by omega)) (fuel := fuel) (by omega) (by omega)
  refine ⟨s6, w6, H6, f6, ?_, by omega, (R5.trans n3).weaken (by omega) (by omega) (by omega)⟩
  have e59 : code 59 = 59 := rfl
  rw [← n1, next_cons, sexp_hash, r1, ok_bind]
  simp only [readHash, e59]
  simp only [show ¬ ((59 : Int) = 33 ∨ (59 : Int) = 124) by decide, show ¬ (59 : Int) = 102 by decide, show ¬ (59 : Int) = 116 by decide,
    show ¬ (59 : Int) = 44 by decide, show ¬ (59 : Int) = 39 by decide, show ¬ (59 : Int) = 96 by decide, show ¬ (59 : Int) = 58 by decide,
    show ¬ (59 : Int) = 98 by decide, show ¬ (59 : Int) = 111 by decide, show ¬ (59 : Int) = 120 by decide, show ¬ (59 : Int) = 92 by decide,
    show ¬ (59 : Int) = 40 by decide, if_false, if_true, q1, ok_bind, k1, m1, t1]

/-! ### Words -/

theorem sexp_word {b : Byte} (h : ¬ IsDelimiter b) (h1 : b ≠ 35) (h2 : b ≠ 39) (h3 : b ≠ 44) (h4 : b ≠ 96) (h5 : b ≠ 46) :
    readSexp E.k (fuel + 1) s w (code b) = readIdentifierOrNumber E.k fuel s w (code b) := by
  obtain ⟨-, n1, n2, n3, n4, n5, n6, n7, n8⟩ := not_delim h
  have n0 : ¬ code b = eof := by have := code_nonneg b; unfold eof; omega
  rw [readSexp, if_neg n0, if_neg (code_ne n1 (by decide)),
    if_neg (not_or.2 ⟨code_ne n5 (by decide), not_or.2 ⟨code_ne n6 (by decide), not_or.2 ⟨code_ne n7 (by decide), code_ne n8 (by decide)⟩⟩⟩),
    if_neg (code_ne n3 (by decide)), if_neg (code_ne n4 (by decide)), if_neg (code_ne h1 (by decide)), if_neg (code_ne h4 (by decide)),
    if_neg (code_ne h3 (by decide)), if_neg (code_ne h2 (by decide)), if_neg (code_ne n2 (by decide)), if_neg (code_ne h5 (by decide))]

theorem sexp_dot : readSexp E.k (fuel + 1) s w (code 46) = (do
    let (p, s, w) ← peekchar s w E.k
    if identifierP p then readIdentifierOrNumber E.k fuel s w (code 46) else ok (c_dot, s, w)) := by
  rw [readSexp]
  have e46 : code 46 = 46 := rfl
  simp only [e46, if_neg (show ¬ (46 : Int) = eof by decide), if_neg (show ¬ (46 : Int) = 59 by decide),
    if_neg (show ¬ ((46 : Int) = 32 ∨ (46 : Int) = 9 ∨ (46 : Int) = 10 ∨ (46 : Int) = 12) by decide),
    if_neg (show ¬ (46 : Int) = 40 by decide), if_neg (show ¬ (46 : Int) = 41 by decide), if_neg (show ¬ (46 : Int) = 35 by decide),
    if_neg (show ¬ (46 : Int) = 96 by decide), if_neg (show ¬ (46 : Int) = 44 by decide), if_neg (show ¬ (46 : Int) = 39 by decide),
    if_neg (show ¬ (46 : Int) = 34 by decide), if_true]

theorem dot_tag (h : Reading E s w H bs clear) : (s.cell c_dot).tag = .special := by
  rw [h.names.fixed c_dot (by decide) (by decide)]; rfl

theorem dec_first {b : Byte} (h : IsDec b) : b ≠ 35 ∧ b ≠ 39 ∧ b ≠ 44 ∧ b ≠ 96 ∧ b ≠ 46 := by
  have := isDec_val h
  unfold code at this
  simp only [byte_lit, ne_eq]
  omega

theorem DatumOk.num {ds : List Byte} (sign : Option Bool) (hds : ds ≠ []) (hd : ∀ c ∈ ds, IsDec c) (hl : ds.length ≤ E.mx)
    (hv : numVal 10 ds ≤ maxLiteral) {t : List Byte}
    (ht : t = (match sign with | none => [] | some true => [45] | some false => [43]) ++ ds) :
    DatumOk E (.num (if sign = some true then -(numVal 10 ds) else numVal 10 ds)) true t := by
  intro rest s w H clear fuel he h hr hf hk
  obtain ⟨fuel, rfl⟩ : ∃ f, fuel = f + 1 := ⟨fuel - 1, by omega⟩
  have hp : 1 ≤ ds.length := List.length_pos_iff.2 hds
  have hlen : ds.length ≤ t.length ∧ ∃ b r, t = b :: r ∧ ¬ IsDelimiter b ∧ b ≠ 35 ∧ b ≠ 39 ∧ b ≠ 44 ∧ b ≠ 96 ∧ b ≠ 46 := by
    match sign, ht with
    | none, ht =>
      obtain ⟨b, ds, rfl⟩ := List.exists_cons_of_ne_nil hds
      exact ⟨by rw [ht]; simp, b, ds, ht, isDec_not_delimiter (hd b (by simp)), dec_first (hd b (by simp))⟩
    | some true, ht => exact ⟨by rw [ht]; simp, 45, ds, ht, by decide⟩
    | some false, ht => exact ⟨by rw [ht]; simp, 43, ds, ht, by decide⟩
  obtain ⟨hlen, b, r, rfl, n0, n1, n2, n3, n4, n5⟩ := hlen
  obtain ⟨x, s1, w1, k1, k2, k3, k4⟩ := readIdent_num sign hds hd (Nat.le_trans hl h.mx) hv (he rfl) (fuel := fuel) (by omega) hr
    (by simp only [List.length_cons]; omega) (by simp only [List.length_cons] at hlen ⊢; omega) ht h
  refine ⟨x, s1, w1, H, 1, ?_, by simp only [Datum.spine, List.length_cons]; omega,
    k4.weaken (by omega) (by simp only [List.length_cons] at hlen ⊢; omega) (by omega), ⟨.num k2, .num k3.1 k2.valid.2 k3.2⟩, ?_, by simp [Datum.spine]⟩
  · rw [List.cons_append, next_cons] at k1 ⊢
    rw [sexp_word n0 n1 n2 n3 n4 n5, k1]
  · rintro rfl
    have := dot_tag k4.rd
    rw [k2.tag] at this; cases this

theorem DatumOk.sym {name : List Byte} (hi : Ident E.mx name) : DatumOk E (.sym name) true name := by
  intro rest s w H clear fuel he h hr hf hk
  obtain ⟨fuel, rfl⟩ : ∃ f, fuel = f + 1 := ⟨fuel - 1, by omega⟩
  obtain ⟨b, r, hname⟩ := List.exists_cons_of_ne_nil hi.nonempty
  have hlen : 1 ≤ name.length := by rw [hname]; simp
  have hnd : ¬ IsDelimiter b := (hi.chars b (by rw [hname]; simp)).1
  obtain ⟨f1, f2, f3, f4⟩ := hi.first b r hname
  have fin : ∀ w1, Reading E s w1 H ((name ++ rest).drop 1) false →
      readSexp E.k (fuel + 1) s w (code b) = readIdentifierOrNumber E.k fuel s w1 (code b) →
      ∃ x s' w' H' A, readSexp E.k (fuel + 1) s w (next (name ++ rest)) = ok (x, s', w') ∧ A + 4 + 3 * (Datum.sym name).spine ≤ 20 * name.length ∧
      Run E s H s' w' H' rest false A (4 * name.length - 1) name.length ∧ (Den s' H' E.touch x (.sym name) ∧ Fresh s' s.free s'.free x (.sym name)) ∧ x ≠ c_dot ∧
      (Datum.sym name).spine ≤ name.length := by
    intro w1 h1 he1
    obtain ⟨x, s1, w2, H1, k1, k2, k3, k4, k5⟩ := readIdent_word hi.toWordText hi.toNotNumeric (he rfl) (fuel := fuel) (by omega) (by omega) hr
      (by omega) (by omega) h1
    refine ⟨x, s1, w2, H1, _, ?_, ?_, k2.weaken (Nat.le_refl _) (by omega) (by omega),
      ⟨.sym k3 k4 k5 ?_, .atom k2.frame.le (by simp)⟩, ?_, by simp [Datum.spine]⟩
    · rw [hname, List.cons_append, next_cons] at k1 ⊢
      rw [he1, k1]
    · simp only [Datum.spine]; omega
    · intro e; exact f1 (by rw [hname] at e; exact (List.cons.inj e).1)
    · rintro rfl
      have := k3.inj k2.rd.names.dot
      obtain ⟨c, r', e, -⟩ := hi.dot [] (by rw [this])
      cases e
  by_cases h46 : b = 46
  · subst h46
    obtain ⟨c, r', rfl, c1, c2⟩ := hi.dot r hname
    have hc := (hi.chars c (by rw [hname]; simp)).1
    rw [hname] at h
    obtain ⟨w1, p1, p2⟩ := Reading.peek (c := c) (bs := r' ++ rest) h
    refine fin w1 (by rw [hname]; exact p2) ?_
    rw [sexp_dot, p1]
    have hp : identifierP (code c) = true := by
      obtain ⟨-, n1, n2, n3, n4, n5, n6, n7, n8⟩ := not_delim hc
      unfold identifierP code eof
      simp only [byte_lit, ne_eq] at n1 n2 n3 n4
      simp only [Bool.and_eq_true, decide_eq_true_eq]
      omega
    simp only [ok_bind, hp, if_true]
  · exact fin w h.weaken (sexp_word hnd f1 f2 f3 f4 h46)

theorem DatumOk.str {bs t : List Byte} (hb : StringBody bs t) (hl : bs.length < E.mx) : DatumOk E (.str bs) false ([34] ++ t ++ [34]) := by
  intro rest s w H clear fuel he h hr hf hk
  simp only [List.cons_append, List.append_assoc, drop_one_cons, List.length_cons, List.length_append, List.nil_append, List.length_nil] at h hf hk hr ⊢
  have hbt : bs.length ≤ t.length := by clear hl he h hf hk hr; induction hb <;> simp only [List.length_cons, List.length_nil] at * <;> omega
  obtain ⟨fuel, rfl⟩ : ∃ f, fuel = f + 1 := ⟨fuel - 1, by omega⟩
  obtain ⟨x, s1, w1, k1, k2, k3, k4⟩ := readString_ok hb (fuel := fuel) (by omega) hl hr (by omega) (by omega) h
  refine ⟨x, s1, w1, H, _, ?_, ?_, k4.unclear.weaken (Nat.le_refl _) (by omega) (by omega), ⟨.str k2, .atom k4.frame.le (by simp)⟩, ?_, by simp [Datum.spine]⟩
  · rw [next_cons, readSexp]
    have e34 : code 34 = 34 := rfl
    simp only [e34, if_neg (show ¬ (34 : Int) = eof by decide), if_neg (show ¬ (34 : Int) = 59 by decide),
      if_neg (show ¬ ((34 : Int) = 32 ∨ (34 : Int) = 9 ∨ (34 : Int) = 10 ∨ (34 : Int) = 12) by decide),
      if_neg (show ¬ (34 : Int) = 40 by decide), if_neg (show ¬ (34 : Int) = 41 by decide), if_neg (show ¬ (34 : Int) = 35 by decide),
      if_neg (show ¬ (34 : Int) = 96 by decide), if_neg (show ¬ (34 : Int) = 44 by decide), if_neg (show ¬ (34 : Int) = 39 by decide),
      if_true, k1]
  · simp only [Datum.spine]; omega
  · rintro rfl
    have := dot_tag k4.rd
    rw [k2.tag] at this; cases this

/-! ### Data that begin with a hash sign -/

/-- It is enough to see what `reader_read_hash` does. -/
theorem DatumOk.hash {b : Byte} {t : List Byte} (h : ∀ {rest : List Byte} {s : St} {w : In} {clear : Bool} {fuel : Nat} {H : List (List Byte × Int)}, (last = true → Ends rest) →
    Reading E s w H (t ++ rest) clear → RoomFor E s (20 * (t.length + 2)) (4 * (t.length + 2) - 2) → 2 * t.length + 4 ≤ fuel →
    H.length + t.length + 2 < E.k →
    ∃ x s' w' H' A, readHash E.k fuel s w (code b) = ok (x, s', w') ∧ A + 4 + 3 * d.spine ≤ 20 * (t.length + 2) ∧
      Run E s H s' w' H' rest false A (4 * (t.length + 2) - 2) (t.length + 2) ∧ (Den s' H' E.touch x d ∧ Fresh s' s.free s'.free x d) ∧ x ≠ c_dot ∧ d.spine ≤ t.length + 2) :
    DatumOk E d last (35 :: b :: t) := by
  intro rest s w H clear fuel he h0 hr hf hk
  simp only [List.cons_append, drop_one_cons, List.length_cons] at h0 hf hk hr ⊢
  obtain ⟨fuel, rfl⟩ : ∃ f, fuel = f + 1 := ⟨fuel - 1, by omega⟩
  obtain ⟨s1, w1, r1, r2⟩ := h0.read hr (by omega)
  obtain ⟨x, s2, w2, H2, A2, k1, k2, k3, k4⟩ := h he r2.rd (r2.room hr (by omega) (by omega)) (fuel := fuel) (by omega) (by omega)
  refine ⟨x, s2, w2, H2, A2, ?_, by omega, (r2.trans k3).weaken (by omega) (by omega) (by omega), ⟨k4.1.1, k4.1.2.mono r2.frame.le (Int.le_refl _)⟩, k4.2.1, by omega⟩
  rw [next_cons, sexp_hash, r1, ok_bind]
  exact k1

theorem not_dot {x : Int} {tag : Tag} (h : Reading E s w H bs clear) (ht : (s.cell x).tag = tag) (hn : tag ≠ .special) : x ≠ c_dot := by
  rintro rfl
  exact hn (ht.symm.trans (dot_tag h))

theorem DatumOk.bool (b : Bool) : DatumOk E (.bool b) false [35, if b then 116 else 102] := by
  refine DatumOk.hash (fun {rest s w clear fuel H} he h hr hf hk => ?_)
  obtain ⟨fuel, rfl⟩ : ∃ f, fuel = f + 1 := ⟨fuel - 1, by omega⟩
  refine ⟨if b then c_t else c_f, s, w, H, 0, ?_, by simp [Datum.spine], h.weaken.run.weaken (by omega) (by omega) (by omega), ⟨.bool b, .atom (Int.le_refl _) (by simp)⟩,
    by cases b <;> decide, by simp [Datum.spine]⟩
  cases b <;> rfl

theorem DatumOk.chr (b : Byte) : DatumOk E (.chr (code b)) true [35, 92, b] := by
  refine DatumOk.hash (fun {rest s w clear fuel H} he h hr hf hk => ?_)
  obtain ⟨fuel, rfl⟩ : ∃ f, fuel = f + 1 := ⟨fuel - 1, by omega⟩
  obtain ⟨x, s1, w1, k1, k2, k3, k4⟩ := readCharacter_one (fuel := fuel) b (he rfl) hr (by simp) (by simp) h
  exact ⟨x, s1, w1, H, 1, k1, by simp [Datum.spine], k4.weaken (by omega) (by simp) (by omega),
    ⟨.chr k2 (by have := code_nonneg b; have := code_lt b; omega), .chr k3.1 k2.valid.2 k3.2⟩, not_dot k4.rd k2.tag (by decide), by simp [Datum.spine]⟩

theorem DatumOk.chrName {name : List Byte} {n : Int} (hn : (name, n) ∈ characterNames) : DatumOk E (.chr n) true ([35, 92] ++ name) := by
  change DatumOk E (.chr n) true (35 :: 92 :: name)
  refine DatumOk.hash (fun {rest s w clear fuel H} he h hr hf hk => ?_)
  change Reading E s w H (name ++ rest) clear at h
  change RoomFor E s (20 * (name.length + 2)) (4 * (name.length + 2) - 2) at hr
  change 2 * name.length + 4 ≤ fuel at hf
  change H.length + name.length + 2 < E.k at hk
  obtain ⟨fuel, rfl⟩ : ∃ f, fuel = f + 1 := ⟨fuel - 1, by omega⟩
  obtain ⟨x, s1, w1, k1, k2, k3, k4⟩ := readCharacter_name hn (he rfl) (fuel := fuel) (by omega) hr (by omega) (by omega) h
  exact ⟨x, s1, w1, H, 1, k1, by simp only [Datum.spine]; omega, k4.weaken (by omega) (by omega) (by omega),
    ⟨.chr k2 (characterNames_ok _ hn).2.2.2.2.2, .chr k3.1 k2.valid.2 k3.2⟩, not_dot k4.rd k2.tag (by decide), by simp [Datum.spine]⟩

theorem DatumOk.radix {c : Byte} {base : Nat} {ds : List Byte} (neg : Bool) (hc : (c, base) ∈ radixes) (hds : ds ≠ [])
    (hd : ∀ c ∈ ds, ∃ v, hexVal c = some v ∧ v < base) (hv : radixVal base ds ≤ maxLiteral) :
    DatumOk E (.num (if neg then -(radixVal base ds) else radixVal base ds)) true ([35, c] ++ (if neg then [45] else []) ++ ds) := by
  have ht : [35, c] ++ (if neg then [45] else []) ++ ds = 35 :: c :: ((if neg then [45] else []) ++ ds) := by simp
  rw [ht]
  refine DatumOk.hash (fun {rest s w clear fuel H} he h hr hf hk => ?_)
  have hlen : ds.length ≤ ((if neg = true then [(45 : Byte)] else []) ++ ds).length := by simp
  obtain ⟨fuel, rfl⟩ : ∃ f, fuel = f + 1 := ⟨fuel - 1, by omega⟩
  have fin : ∃ x s' w', readHash E.k (fuel + 1) s w (code c) = ok (x, s', w') ∧ IsNum s' x (if neg then -(radixVal base ds) else radixVal base ds) ∧
      (s.free ≤ x ∧ (s'.cell x).car = 0) ∧ Run E s H s' w' H rest false 1 (ds.length + 1) 0 := by
    simp only [radixes, List.mem_cons, Prod.mk.injEq, List.not_mem_nil, or_false] at hc
    rcases hc with ⟨rfl, rfl⟩ | ⟨rfl, rfl⟩ | ⟨rfl, rfl⟩
    · exact readBinaryOctal_ok (.inl rfl) neg hds hd hv (he rfl) (fuel := fuel) (by omega) hr (by omega) (by omega) h
    · exact readBinaryOctal_ok (.inr rfl) neg hds hd hv (he rfl) (fuel := fuel) (by omega) hr (by omega) (by omega) h
    · exact readHex_ok neg hds hd hv (he rfl) (fuel := fuel) (by omega) hr (by omega) (by omega) h
  obtain ⟨x, s1, w1, k1, k2, k3, k4⟩ := fin
  exact ⟨x, s1, w1, H, 1, k1, by simp only [Datum.spine]; omega, k4.weaken (by omega) (by omega) (by omega),
    ⟨.num k2, .num k3.1 k2.valid.2 k3.2⟩, not_dot k4.rd k2.tag (by decide), by simp [Datum.spine]⟩

theorem DatumOk.kw {name : List Byte} (hm : 45 ≤ E.mx) (hw : WordText E.mx name) (hn : NotNumeric name) :
    DatumOk E (.kw name) true ([35, 58] ++ name) := by
  change DatumOk E (.kw name) true (35 :: 58 :: name)
  refine DatumOk.hash (fun {rest s w clear fuel H} he h hr hf hk => ?_)
  change Reading E s w H (name ++ rest) clear at h
  change RoomFor E s (20 * (name.length + 2)) (4 * (name.length + 2) - 2) at hr
  change 2 * name.length + 4 ≤ fuel at hf
  change H.length + name.length + 2 < E.k at hk
  obtain ⟨fuel, rfl⟩ : ∃ f, fuel = f + 1 := ⟨fuel - 1, by omega⟩
  obtain ⟨x, s1, w1, H1, k1, k2, k3, k4⟩ := readKeyword_ok hw hn (he rfl) hm (fuel := fuel) (by omega) (by omega) hr (by omega) (by omega) h
  exact ⟨x, s1, w1, H1, _, k1, by simp only [Datum.spine]; omega, k4.weaken (Nat.le_refl _) (by omega) (by omega),
    ⟨.kw k2 k3, .atom k4.frame.le (by simp)⟩, not_dot k4.rd k3 (by decide), by simp [Datum.spine]⟩

/-! ### Quotations -/

/-- Two cells make the list of a name and a datum. -/
theorem wrap_ok {a x : Int} {name : List Byte} (h : Reading E s w H bs clear) (hn : lookup name H = some a) (hne : name ≠ [35, 102])
    (hx : Den s H E.touch x d) {lo : Int} (hfr : Fresh s lo s.free x d) (hlo : ∀ a, E.touch a → a < lo) (hr : RoomFor E s A B) (hA : 2 ≤ A) :
    ∃ y s', wrap s a x = ok (y, s') ∧ (Den s' H E.touch y (.pair (.sym name) (.pair d .nil)) ∧ Fresh s' lo s'.free y (.pair (.sym name) (.pair d .nil))) ∧ s.free ≤ y ∧ Run E s H s' w H bs clear 2 0 0 := by
  have x1 := push_ext s { tag := .pair, car := x, cdr := c_nil }
  have R1 := h.alloc (A := 1) x1 (by simp)
  have r1 := R1.room hr (A₂ := 1) (B₂ := 0) (by omega) (by omega)
  have x2 := push_ext (s.push { tag := .pair, car := x, cdr := c_nil }) { tag := .pair, car := a, cdr := s.free }
  have R2 := R1.rd.alloc (A := 1) x2 (by simp)
  have R := R1.trans R2
  have v1 : (s.push { tag := .pair, car := x, cdr := c_nil }).Valid s.free := (hr.cells (k := 1) (by omega)).free_valid _
  have hx2 := R.den h hx
  obtain ⟨t1, t2⟩ := R.rd.sym.named _ (lookup_mem hn)
  have hc : ∀ (s0 : St) (c : Cell), (s0.push c).cell s0.free = c := fun s0 c => by simp
  refine ⟨_, _, ?_, ?_, R1.frame.le, R.weaken (by omega) (by omega) (by omega)⟩
  · simp only [wrap, cons_ok (hr.cells (k := 1) (by omega)), ok_bind, cons_ok (r1.cells (k := 1) (by omega))]
  · have e := x2.same _ v1.2 id
    refine ⟨.pair ((r1.cells (k := 1) (by omega)).free_valid _) (by rw [hc]) ?_ ?_,
      .pair (m := lo) (m' := s.free + 1) (.atom (Int.le_refl _) (by simp)) ?_ (by simp) (by simp; omega)⟩
    · rw [hc]; exact .sym t1 t2 hn hne
    · rw [hc]
      simp only
      refine .pair (x2.valid v1) (by rw [e, hc]) ?_ ?_
      · rw [e, hc]; exact hx2
      · rw [e, hc]; exact .nil
    · rw [hc]
      simp only
      refine .pair (m := s.free) (m' := s.free) ?_ (.atom (Int.le_refl _) (by simp)) (Int.le_refl _) (by omega)
      rw [e, hc]
      exact hfr.keep R.frame hlo (Int.le_refl _)

theorem quotes_names : ∀ q ∈ quotes, q.2.1 ≠ [35, 102] := by decide

theorem readQuoted_ok {p name g t : List Byte} {a : Int} (hq : (p, name, a) ∈ quotes) (hg : GapOk E g) (hp : 1 ≤ t.length)
    (hd : DatumOk E d last t) (he : last = true → Ends rest) (h : Reading E s w H (g ++ t ++ rest) clear)
    (hr : RoomFor E s (20 * (g.length + t.length) + 2) (4 * (g.length + t.length))) (hf : 2 * (g.length + t.length) + 3 ≤ fuel)
    (hk : H.length + (g.length + t.length) < E.k) :
    ∃ x s' w' H' A, readQuoted E.k fuel s w a = ok (x, s', w') ∧ A + 2 ≤ 20 * (g.length + t.length) ∧
      Run E s H s' w' H' rest false A (4 * (g.length + t.length)) (g.length + t.length) ∧
      (Den s' H' E.touch x (.pair (.sym name) (.pair d .nil)) ∧ Fresh s' s.free s'.free x (.pair (.sym name) (.pair d .nil))) ∧ x ≠ c_dot := by
  obtain ⟨fuel, rfl⟩ : ∃ f, fuel = f + 1 := ⟨fuel - 1, by omega⟩
  rw [List.append_assoc] at h
  obtain ⟨s1, w1, r1, r2, r3⟩ := h.take hr (by omega)
  have hne : t ++ rest ≠ [] := by intro e; simp at e; simp [e.1] at hp
  obtain ⟨s2, w2, H2, f2, k1, k2, k3⟩ := hg r2.rd (r3.room hr (by omega) (by omega)) (fuel := fuel) (by omega) (by omega)
  have R2 := r3.trans k3
  have hl := R2.length
  obtain ⟨x, s3, w3, H3, A3, m1, m2, m3, m4, m5⟩ := hd he k3.rd (R2.room hr (by omega) (by omega)) (fuel := f2) (by omega) (by omega)
  have R3 := R2.trans m3
  obtain ⟨y, s4, y1, y2, y3, y4⟩ := wrap_ok m3.rd (m3.rd.names.quotes _ hq) (quotes_names _ hq) m4.1 m4.2 (fun a ha => k3.rd.touch_lt ha)
    (R3.room hr (A₂ := 2) (B₂ := 0) (by omega) (by omega)) (by omega)
  refine ⟨y, s4, w3, H3, 20 * g.length + A3 + 2, ?_, by omega, (R3.trans y4).weaken (by omega) (by omega) (by omega),
    ⟨y2.1, y2.2.mono R2.frame.le (Int.le_refl _)⟩, ?_⟩
  · simp only [readQuoted, r1, ok_bind, k1, m1, y1]
  · have := m3.rd.names.base
    simp only [c_symbol_max, c_dot] at this ⊢
    omega

theorem peek_ne {b : Byte} {l : List Byte} (h : l.head? ≠ some b) (hb : b.toNat < 128) : ¬ next l = code b := by
  cases l with
  | nil => simp [next, eof, code]
  | cons c l => rw [next_cons, code_inj]; simpa using h

theorem DatumOk.quote {p name g t : List Byte} {a : Int} (hq : (p, name, a) ∈ quotes) (hg : GapOk E g) (hp : 1 ≤ t.length)
    (hd : DatumOk E d last t) (hat : p.getLast? = some 44 → (g ++ t).head? ≠ some 64) :
    DatumOk E (.pair (.sym name) (.pair d .nil)) last (p ++ g ++ t) := by
  have hsp : (Datum.pair (.sym name) (.pair d .nil)).spine = 2 := rfl
  have hat' : p.getLast? = some 44 → ∀ rest : List Byte, ¬ next (g ++ t ++ rest) = 64 := fun h rest => by
    refine peek_ne (b := 64) (fun e => hat h ?_) (by decide)
    rw [List.head?_append] at e
    cases hh : (g ++ t).head? with
    | some b => rw [hh] at e; simpa using e
    | none =>
      rw [List.head?_eq_none_iff] at hh
      simp at hh
      simp [hh.2] at hp
  -- what is left when the prefix is read
  have main : ∀ {rest : List Byte} {s : St} {w : In} {H : List (List Byte × Int)} {clear : Bool} {fuel : Nat} {B : Nat}, (last = true → Ends rest) →
      Reading E s w H (g ++ t ++ rest) clear → RoomFor E s (20 * (g.length + t.length + 1)) B → 4 * (g.length + t.length) ≤ B →
      2 * (g.length + t.length) + 3 ≤ fuel → H.length + (g.length + t.length) < E.k →
      ∃ x s' w' H' A, readQuoted E.k fuel s w a = ok (x, s', w') ∧ A + 4 + 3 * 2 ≤ 20 * (g.length + t.length + 1) ∧
        Run E s H s' w' H' rest false A (4 * (g.length + t.length)) (g.length + t.length) ∧
        (Den s' H' E.touch x (.pair (.sym name) (.pair d .nil)) ∧ Fresh s' s.free s'.free x (.pair (.sym name) (.pair d .nil))) ∧ x ≠ c_dot := by
    intro rest s w H clear fuel B he h hr hB hf hk
    obtain ⟨x, s1, w1, H1, A1, k1, k2, k3, k4⟩ := readQuoted_ok hq hg hp hd he h (hr.mono (by omega) hB) hf hk
    exact ⟨x, s1, w1, H1, A1, k1, by omega, k3, k4⟩
  -- a prefix of one character
  have one : ∀ b : Byte, p = [b] → (∀ {s w H rest fuel clear}, Reading E s w H (g ++ t ++ rest) clear → ∃ w', Reading E s w' H (g ++ t ++ rest) false ∧
      readSexp E.k (fuel + 1) s w (code b) = readQuoted E.k fuel s w' a) →
      DatumOk E (.pair (.sym name) (.pair d .nil)) last (b :: (g ++ t)) := by
    intro b hb step rest s w H clear fuel he h hr hf hk
    simp only [List.cons_append, drop_one_cons, List.length_cons, List.length_append] at h hf hk hr ⊢
    obtain ⟨fuel, rfl⟩ : ∃ f, fuel = f + 1 := ⟨fuel - 1, by omega⟩
    obtain ⟨w1, q1, q2⟩ := step (fuel := fuel) h
    obtain ⟨x, s1, w2, H1, A1, k1, k2, k3, k4, k5⟩ := main he q1 hr (by omega) (fuel := fuel) (by omega) (by omega)
    exact ⟨x, s1, w2, H1, A1, by rw [next_cons, q2, k1], by omega, k3.weaken (Nat.le_refl _) (by omega) (by omega), k4, k5, by omega⟩
  -- a prefix of two characters, the first a hash sign
  have two : ∀ b : Byte, p = [35, b] → (∀ {s w H rest fuel clear}, Reading E s w H (g ++ t ++ rest) clear → ∃ w', Reading E s w' H (g ++ t ++ rest) false ∧
      readHash E.k (fuel + 1) s w (code b) = readQuoted E.k fuel s w' a) →
      DatumOk E (.pair (.sym name) (.pair d .nil)) last (35 :: b :: (g ++ t)) := by
    intro b hb step
    refine DatumOk.hash (fun {rest s w clear fuel H} he h hr hf hk => ?_)
    simp only [List.length_append] at hf hk hr ⊢
    obtain ⟨fuel, rfl⟩ : ∃ f, fuel = f + 1 := ⟨fuel - 1, by omega⟩
    obtain ⟨w1, q1, q2⟩ := step (fuel := fuel) h
    obtain ⟨x, s1, w2, H1, A1, k1, k2, k3, k4, k5⟩ := main he q1 (hr.mono (by omega) (Nat.le_refl _)) (by omega) (fuel := fuel) (by omega) (by omega)
    exact ⟨x, s1, w2, H1, A1, by rw [q2, k1], by omega, k3.weaken (Nat.le_refl _) (by omega) (by omega), k4, k5, by omega⟩
  have hq' := hq
  simp only [quotes, List.mem_cons, List.not_mem_nil, Prod.mk.injEq, or_false] at hq'
  rcases hq' with ⟨rfl, -, rfl⟩ | ⟨rfl, -, rfl⟩ | ⟨rfl, -, rfl⟩ | ⟨rfl, -, rfl⟩ | ⟨rfl, -, rfl⟩ | ⟨rfl, -, rfl⟩ | ⟨rfl, -, rfl⟩ | ⟨rfl, -, rfl⟩
  · exact one 39 rfl (fun {s w H rest fuel clear} h => ⟨w, h.weaken, rfl⟩)
  · exact one 96 rfl (fun {s w H rest fuel clear} h => ⟨w, h.weaken, rfl⟩)
  · refine one 44 rfl (fun {s w H rest fuel clear} h => ?_)
    obtain ⟨w1, p1, p2⟩ := h.peek'
    refine ⟨w1, p2, ?_⟩
    have : readSexp E.k (fuel + 1) s w (code 44) = (do
      let (p, s, w) ← peekchar s w E.k
      if p = 64 then do
        let (_, s, w) ← readchar s w E.k
        readQuoted E.k fuel s w c_symbol_unquote_splicing
      else readQuoted E.k fuel s w c_symbol_unquote) := rfl
    rw [this, p1]
    simp only [ok_bind, if_neg (hat' rfl rest)]
  · intro rest s w H clear fuel he h hr hf hk
    simp only [List.cons_append, List.nil_append, drop_one_cons, List.length_cons, List.length_append] at h hf hk hr ⊢
    obtain ⟨fuel, rfl⟩ : ∃ f, fuel = f + 1 := ⟨fuel - 1, by omega⟩
    obtain ⟨w1, p1, p2⟩ := h.peek
    obtain ⟨s2, w2, r1, r2⟩ := p2.read hr (by omega)
    obtain ⟨x, s3, w3, H3, A3, k1, k2, k3, k4, k5⟩ := main he r2.rd (r2.room hr (B₂ := 4 * (g.length + t.length)) (by omega) (by omega)) (by omega) (fuel := fuel) (by omega) (by omega)
    refine ⟨x, s3, w3, H3, A3, ?_, by omega, (r2.trans k3).weaken (by omega) (by omega) (by omega),
      ⟨k4.1, k4.2.mono r2.frame.le (Int.le_refl _)⟩, k5, by omega⟩
    have : readSexp E.k (fuel + 1) s w (code 44) = (do
      let (p, s, w) ← peekchar s w E.k
      if p = 64 then do
        let (_, s, w) ← readchar s w E.k
        readQuoted E.k fuel s w c_symbol_unquote_splicing
      else readQuoted E.k fuel s w c_symbol_unquote) := rfl
    rw [next_cons, this, p1]
    simp only [ok_bind, if_pos (show code 64 = 64 from rfl), r1, k1]
  · exact two 39 rfl (fun {s w H rest fuel clear} h => ⟨w, h.weaken, rfl⟩)
  · exact two 96 rfl (fun {s w H rest fuel clear} h => ⟨w, h.weaken, rfl⟩)
  · refine two 44 rfl (fun {s w H rest fuel clear} h => ?_)
    obtain ⟨w1, p1, p2⟩ := h.peek'
    refine ⟨w1, p2, ?_⟩
    have : readHash E.k (fuel + 1) s w (code 44) = (do
      let (p, s, w) ← peekchar s w E.k
      if p = 64 then do
        let (_, s, w) ← readchar s w E.k
        readQuoted E.k fuel s w c_symbol_unsyntax_splicing
      else readQuoted E.k fuel s w c_symbol_unsyntax) := rfl
    rw [this, p1]
    simp only [ok_bind, if_neg (hat' rfl rest)]
  · change DatumOk E _ last (35 :: 44 :: ([64] ++ g ++ t))
    refine DatumOk.hash (fun {rest s w clear fuel H} he h hr hf hk => ?_)
    simp only [List.cons_append, List.nil_append, List.length_cons, List.length_append] at h hf hk hr ⊢
    obtain ⟨fuel, rfl⟩ : ∃ f, fuel = f + 1 := ⟨fuel - 1, by omega⟩
    obtain ⟨w1, p1, p2⟩ := h.peek
    obtain ⟨s2, w2, r1, r2⟩ := p2.read hr (by omega)
    obtain ⟨x, s3, w3, H3, A3, k1, k2, k3, k4, k5⟩ := main he r2.rd (r2.room hr (B₂ := 4 * (g.length + t.length)) (by omega) (by omega)) (by omega) (fuel := fuel) (by omega) (by omega)
    refine ⟨x, s3, w3, H3, A3, ?_, by omega, (r2.trans k3).weaken (by omega) (by omega) (by omega),
      ⟨k4.1, k4.2.mono r2.frame.le (Int.le_refl _)⟩, k5, by omega⟩
    have : readHash E.k (fuel + 1) s w (code 44) = (do
      let (p, s, w) ← peekchar s w E.k
      if p = 64 then do
        let (_, s, w) ← readchar s w E.k
        readQuoted E.k fuel s w c_symbol_unsyntax_splicing
      else readQuoted E.k fuel s w c_symbol_unsyntax) := rfl
    rw [this, p1]
    simp only [ok_bind, if_pos (show code 64 = 64 from rfl), r1, k1]

/-! ### Lists and vectors -/

theorem TailOk.close {sp : List Byte} (hs : Space sp) : TailOk E .nil (sp ++ [41]) := by
  intro rest s w H clear fuel h hr hf hk
  simp only [List.append_assoc, List.cons_append, List.nil_append, List.length_append, List.length_cons, List.length_nil] at h hf hk hr ⊢
  obtain ⟨fuel, rfl⟩ : ∃ f, fuel = f + 1 := ⟨fuel - 1, by omega⟩
  obtain ⟨s1, w1, k1, k2⟩ := eatWhitespace_ok hs (stop := 41) (rest := rest) (fuel := fuel) (by omega)
    ⟨by decide, by decide, fun e => absurd e (by decide)⟩ hr (by omega) h
  refine ⟨c_nil, s1, w1, H, 0, ?_, by simp [Datum.spine], k2.weaken (by omega) (by omega) (by omega), ⟨.nil, .atom k2.frame.le (by simp)⟩, by simp [Datum.spine]⟩
  have e41 : code 41 = 41 := rfl
  simp only [readList, k1, ok_bind, e41, if_true]

/-- One element of a list. -/
theorem readList_element {sp g t : List Byte} (hsp : Space sp) (hg : GapOk E g) (hg' : g = [] ∨ ∃ g', g = 35 :: 59 :: g')
    (hst : ∃ b r, t = b :: r ∧ b ≠ 41 ∧ ∀ rest, Stop b (r ++ rest)) (hd : DatumOk E d last t) (he : last = true → Ends rest)
    (h : Reading E s w H ((sp ++ (g ++ (t ++ rest))).drop 1) clear)
    (hr : RoomFor E s (20 * (sp.length + g.length + t.length)) (4 * (sp.length + g.length + t.length)))
    (hf : 2 * (sp.length + g.length + t.length) + 2 ≤ fuel) (hk : H.length + (sp.length + g.length + t.length) < E.k) :
    ∃ x s' w' H' A, readList E.k (fuel + 1) s w (next (sp ++ (g ++ (t ++ rest)))) = (do
        let (c, s, w) ← readchar s' w' E.k
        let (l, s, w) ← readList E.k fuel s w c
        let (r, s) ← cons s x l
        ok (r, s, w)) ∧ A + 4 + 3 * d.spine ≤ 20 * (sp.length + g.length + t.length) ∧
      Run E s H s' w' H' rest false A (4 * (sp.length + g.length + t.length) - 1) (sp.length + g.length + t.length) ∧
      (Den s' H' E.touch x d ∧ Fresh s' s.free s'.free x d) ∧ d.spine ≤ t.length := by
  obtain ⟨b, r, rfl, hb, hstop⟩ := hst
  obtain ⟨b', r', hbr, hb', hstop'⟩ : ∃ b' r', g ++ (b :: r ++ rest) = b' :: r' ∧ b' ≠ 41 ∧ Stop b' r' := by
    rcases hg' with rfl | ⟨g', rfl⟩
    · exact ⟨b, r ++ rest, rfl, hb, hstop rest⟩
    · exact ⟨35, 59 :: (g' ++ (b :: r ++ rest)), rfl, by decide, by simpa using stop_hash (b := 59) (by decide) (by decide) (g' ++ (b :: r ++ rest)) []⟩
  simp only [List.length_cons] at hr hf hk ⊢
  rw [hbr] at h ⊢
  obtain ⟨s1, w1, k1, k2⟩ := eatWhitespace_ok hsp (stop := b') (rest := r') (fuel := fuel) (by omega) hstop' hr (by omega) h
  have hrd : Reading E s1 w1 H ((g ++ (b :: r ++ rest)).drop 1) false := by rw [hbr]; exact k2.rd
  obtain ⟨s2, w2, H2, f2, m1, m2, m3⟩ := hg (rest := b :: r ++ rest) hrd (k2.room hr (by omega) (by omega)) (fuel := fuel) (by omega) (by omega)
  have R2 := k2.trans m3
  have hl := R2.length
  obtain ⟨x, s3, w3, H3, A3, n1, n2, n3, n4, n5, n6⟩ := hd he m3.rd (R2.room hr (by simp only [List.length_cons]; omega) (by simp only [List.length_cons]; omega)) (fuel := f2)
    (by simp only [List.length_cons]; omega) (by simp only [List.length_cons]; omega)
  simp only [List.length_cons] at n2 n3 n6
  refine ⟨x, s3, w3, H3, 20 * g.length + A3, ?_, by omega, (R2.trans n3).weaken (by omega) (by omega) (by omega),
    ⟨n4.1, n4.2.mono R2.frame.le (Int.le_refl _)⟩, n6⟩
  rw [hbr, next_cons] at m1
  have q1 : ¬ code b' = 41 := code_ne hb' (by decide)
  have q2 : ¬ code b' = eof := by have := code_nonneg b'; unfold eof; omega
  simp only [readList, k1, ok_bind, if_neg q1, if_neg q2, m1, n1, if_neg n5]

/-- The first element and what follows. -/
theorem readList_pair {sp g t r : List Byte} {d' : Datum} (hsp : Space sp) (hg : GapOk E g) (hg' : g = [] ∨ ∃ g', g = 35 :: 59 :: g')
    (hst : ∃ b r, t = b :: r ∧ b ≠ 41 ∧ ∀ rest, Stop b (r ++ rest)) (hd : DatumOk E d last t) (he : last = true → Ends r)
    (hne : r ≠ []) (ht : TailOk E d' r) :
    ∀ ⦃rest : List Byte⦄ ⦃s : St⦄ ⦃w : In⦄ ⦃H : List (List Byte × Int)⦄ ⦃clear : Bool⦄ ⦃fuel : Nat⦄,
    Reading E s w H ((sp ++ g ++ t ++ r ++ rest).drop 1) clear → RoomFor E s (20 * (sp ++ g ++ t ++ r).length) (4 * (sp ++ g ++ t ++ r).length) →
    2 * (sp ++ g ++ t ++ r).length + 2 ≤ fuel → H.length + (sp ++ g ++ t ++ r).length < E.k →
    ∃ x s' w' H' A, readList E.k fuel s w (next (sp ++ g ++ t ++ r ++ rest)) = ok (x, s', w') ∧
      A + 3 * (1 + d'.spine) + 3 * d.spine ≤ 20 * (sp ++ g ++ t ++ r).length ∧
      Run E s H s' w' H' rest false A (4 * (sp ++ g ++ t ++ r).length) (sp ++ g ++ t ++ r).length ∧
      (Den s' H' E.touch x (.pair d d') ∧ Fresh s' s.free s'.free x (.pair d d')) ∧
      1 + d'.spine ≤ (sp ++ g ++ t ++ r).length ∧ d.spine ≤ (sp ++ g ++ t ++ r).length := by
  intro rest s w H clear fuel h hr hf hk
  simp only [List.append_assoc, List.length_append] at h hf hk hr ⊢
  have hlen : 1 ≤ t.length := by obtain ⟨b, r, rfl, -⟩ := hst; simp
  obtain ⟨fuel, rfl⟩ : ∃ f, fuel = f + 1 := ⟨fuel - 1, by omega⟩
  have hrl : 1 ≤ r.length := List.length_pos_iff.2 hne
  obtain ⟨x, s1, w1, H1, A1, k1, k2, k3, k4, k5⟩ := readList_element hsp hg hg' hst hd (rest := r ++ rest) (fun hl => by
      have := he hl
      obtain ⟨b, r, rfl⟩ := List.exists_cons_of_ne_nil hne
      exact this) h (hr.mono (by omega) (by omega)) (fuel := fuel) (by omega) (by omega)
  obtain ⟨s2, w2, t1, t2, t3⟩ := k3.rd.take (k3.room hr (A₂ := 0) (B₂ := 1) (by omega) (by omega)) (by omega)
  have R2 := k3.trans t3
  have hl := R2.length
  obtain ⟨y, s3, w3, H3, A3, m1, m2, m3, m4, m5⟩ := ht t2.rd (R2.room hr (by omega) (by omega)) (fuel := fuel) (by omega) (by omega)
  have R3 := R2.trans m3
  have r3 := R3.room hr (A₂ := 1) (B₂ := 0) (by omega) (by omega)
  have x4 := push_ext s3 { tag := .pair, car := x, cdr := y }
  have R4 := m3.rd.alloc (A := 1) x4 (by simp)
  have hx := (t3.trans (m3.trans R4)).den k3.rd k4.1
  have hy := R4.den m3.rd m4.1
  have fx := k4.2.keep (t3.trans (m3.trans R4)).frame (fun a ha => h.touch_lt ha) (Int.le_refl _)
  have fy := m4.2.keep R4.frame (fun a ha => t2.rd.touch_lt ha) (Int.le_refl _)
  refine ⟨s3.free, _, w3, H3, A1 + A3 + 1, ?_, by omega, (R3.trans R4).weaken (by omega) (by omega) (by omega),
    ⟨.pair ((r3.cells (k := 1) (by omega)).free_valid _) (by simp) (by simpa using hx) (by simpa using hy),
      .pair (m := s2.free) (m' := s3.free) (by simpa using fx.mono (Int.le_refl _) t3.frame.le) (by simpa using fy) (Int.le_refl _) (by simp; omega)⟩, by omega, by omega⟩
  rw [k1]
  simp only [t1, ok_bind, m1, cons_ok (r3.cells (k := 1) (by omega))]

theorem TailOk.element {sp g t r : List Byte} {d' : Datum} (hsp : Space sp) (hg : GapOk E g) (hg' : g = [] ∨ ∃ g', g = 35 :: 59 :: g')
    (hst : ∃ b r, t = b :: r ∧ b ≠ 41 ∧ ∀ rest, Stop b (r ++ rest)) (hd : DatumOk E d last t) (he : last = true → Ends r)
    (hne : r ≠ []) (ht : TailOk E d' r) : TailOk E (.pair d d') (sp ++ g ++ t ++ r) := by
  intro rest s w H clear fuel h hr hf hk
  obtain ⟨x, s1, w1, H1, A1, k1, k2, k3, k4, k5, k6⟩ := readList_pair hsp hg hg' hst hd he hne ht h hr hf hk
  exact ⟨x, s1, w1, H1, A1, k1, by simp only [Datum.spine]; omega, k3, k4, by simp only [Datum.spine]; omega⟩

theorem TailOk.dotted {w1 w2 g t w3 : List Byte} (h1 : Space w1) (h2 : Space w2) (hg : GapOk E g) (hg' : g = [] ∨ ∃ g', g = 35 :: 59 :: g')
    (hst : ∃ b r, t = b :: r ∧ b ≠ 41 ∧ ∀ rest, Stop b (r ++ rest)) (hd : DatumOk E d last t) (he : last = true → Ends (w3 ++ [41])) (h3 : Space w3)
    (hdot : ∀ b, (w2 ++ g ++ t).head? = some b → ¬ (32 < b.toNat ∧ b.toNat ≤ 126) ∨ b = 34 ∨ b = 59 ∨ b = 40) :
    TailOk E d (w1 ++ [46] ++ w2 ++ g ++ t ++ w3 ++ [41]) := by
  have T := readList_pair (r := w3 ++ [41]) h2 hg hg' hst hd he (by simp) (TailOk.close h3)
  intro rest s w H clear fuel h hr hf hk
  simp only [List.append_assoc, List.cons_append, List.nil_append, List.length_append, List.length_cons, List.length_nil] at h hf hk hr ⊢
  have hlen : 1 ≤ t.length := by obtain ⟨b, r, rfl, -⟩ := hst; simp
  obtain ⟨fuel, rfl⟩ : ∃ f, fuel = f + 2 := ⟨fuel - 2, by omega⟩
  obtain ⟨s1, v1, k1, k2⟩ := eatWhitespace_ok h1 (stop := 46) (rest := w2 ++ (g ++ (t ++ (w3 ++ 41 :: rest)))) (fuel := fuel + 1) (by omega)
    ⟨by decide, by decide, fun e => absurd e (by decide)⟩ hr (by omega) h
  obtain ⟨v2, p1, p2⟩ := k2.rd.peek'
  obtain ⟨s3, v3, t1, t2, t3⟩ := p2.take (k2.room hr (A₂ := 0) (B₂ := 1) (by omega) (by omega)) (by omega)
  have R3 : Run E s H s3 v3 H _ _ (0 + 0) (w1.length + 1) (0 + 0) := k2.trans t3
  have ht2 : Reading E s3 v3 H ((w2 ++ g ++ t ++ (w3 ++ [41]) ++ rest).drop 1)
      (decide (w2 ++ (g ++ (t ++ (w3 ++ 41 :: rest))) ≠ [])) := by
    simpa only [List.append_assoc, List.cons_append, List.nil_append] using t2.rd
  obtain ⟨y, s4, v4, H4, A4, m1, m2, m3, m4, m5, m6⟩ := T ht2 (R3.room hr (by simp; omega) (by simp; omega)) (fuel := fuel + 1) (by simp; omega) (by simp; omega)
  simp only [List.length_append, List.length_cons, List.length_nil, Datum.spine] at m2 m3 m6
  obtain ⟨m4, f4⟩ := m4
  cases m4 with
  | pair hv htag ha hdd =>
    have ha : Den s4 H4 E.touch (s4.cell y).car d ∧ Fresh s4 s.free s4.free (s4.cell y).car d := ⟨ha, by
      cases f4 with
      | other h1 => exact absurd rfl (h1 _ _)
      | pair fa fb hp hi => exact fa.mono R3.frame.le (by have := fb.le; omega)⟩
    refine ⟨(s4.cell y).car, s4, v4, H4, A4, ?_, by omega, (R3.trans m3).weaken (by omega) (by omega) (by omega), ha, by omega⟩
    have hid : identifierP (next (w2 ++ (g ++ (t ++ (w3 ++ 41 :: rest))))) = false := by
      obtain ⟨b, r, hb⟩ : ∃ b r, w2 ++ g ++ t = b :: r := List.exists_cons_of_ne_nil (by
        intro e; simp at e; simp [e.2.2] at hlen)
      have hb' : w2 ++ (g ++ (t ++ (w3 ++ 41 :: rest))) = b :: (r ++ (w3 ++ 41 :: rest)) := by
        rw [← List.cons_append, ← hb]; simp
      have := hdot b (by rw [hb]; rfl)
      rw [hb', next_cons, Bool.eq_false_iff]
      unfold identifierP code eof
      simp only [byte_lit] at this
      simp only [ne_eq, Bool.and_eq_true, decide_eq_true_eq]
      omega
    simp only [List.append_assoc, List.cons_append, List.nil_append] at m1
    have q1 : ¬ code 46 = 41 := by decide
    have q2 : ¬ code 46 = eof := by decide
    rw [readList, k1]
    simp only [ok_bind, if_neg q1, if_neg q2, sexp_dot, p1, hid, Bool.false_eq_true, if_false, if_true, t1, m1, St.car_ok hv]

theorem DatumOk.list {r : List Byte} (h : TailOk E d r) (hd : d = .nil ∨ ∃ a b, d = .pair a b) : DatumOk E d false (40 :: r) := by
  intro rest s w H clear fuel he h0 hr hf hk
  simp only [List.cons_append, drop_one_cons, List.length_cons] at h0 hf hk hr ⊢
  obtain ⟨fuel, rfl⟩ : ∃ f, fuel = f + 1 := ⟨fuel - 1, by omega⟩
  obtain ⟨s1, w1, t1, t2, t3⟩ := h0.take hr (by omega)
  obtain ⟨y, s2, w2, H2, A2, m1, m2, m3, m4, m5⟩ := h t2.rd (t3.room hr (by omega) (by omega)) (fuel := fuel) (by omega) (by omega)
  refine ⟨y, s2, w2, H2, A2, ?_, by omega, (t3.trans m3).weaken (by omega) (by omega) (by omega),
    ⟨m4.1, m4.2.mono t3.frame.le (Int.le_refl _)⟩, ?_, by omega⟩
  · have : readSexp E.k (fuel + 1) s w (code 40) = (do
      let (c, s, w) ← readchar s w E.k
      readList E.k fuel s w c) := rfl
    rw [next_cons, this, t1]
    exact m1
  · have m4 := m4.1
    rcases hd with rfl | ⟨a, b, rfl⟩
    · cases m4; decide
    · cases m4 with
      | pair hv ht => exact not_dot m3.rd ht (by decide)

theorem DatumOk.vec {r : List Byte} {es : List Datum} (h : TailOk E (.list es) r) : DatumOk E (.vec es) false (35 :: 40 :: r) := by
  refine DatumOk.hash (fun {rest s w clear fuel H} he h0 hr hf hk => ?_)
  obtain ⟨fuel, rfl⟩ : ∃ f, fuel = f + 1 := ⟨fuel - 1, by omega⟩
  obtain ⟨s1, w1, t1, t2, t3⟩ := h0.take hr (by omega)
  obtain ⟨y, s2, w2, H2, A2, m1, m2, m3, m4, m5⟩ := h t2.rd (t3.room hr (by omega) (by omega)) (fuel := fuel) (by omega) (by omega)
  rw [Datum.spine_list] at m2 m5
  have R2 := t3.trans m3
  obtain ⟨vs, v1, v2, v3⟩ := den_list m4.1 m3.rd
  have hu : ValAt s2 c_unspecified (.obj c_unspecified) := by
    have hb := m3.rd.names.base
    simp only [c_symbol_max] at hb
    refine ⟨rfl, ⟨by decide, by simp only [c_unspecified]; omega⟩, ?_⟩
    rw [m3.rd.names.fixed c_unspecified (by decide) (by decide), if_pos (by decide)]
    decide
  have r2 := R2.room hr (A₂ := 3 * vs.length + 1) (B₂ := 0) (by omega) (by omega)
  obtain ⟨v, s3, n1, n2, n3, n4, n5, n6⟩ := listToVector_ok (fuel := E.k) (r2.cells (by omega)) hu v1 (by omega)
  have R3 := R2.trans (m3.rd.alloc (A := 3 * vs.length + 1) n3 (by omega))
  refine ⟨v, s3, w2, H2, A2 + (3 * vs.length + 1), ?_, by simp only [Datum.spine]; omega, R3.weaken (by omega) (by omega) (by omega), ⟨?_, .atom R3.frame.le (by simp)⟩,
    not_dot R3.rd n2.tag (by decide), by simp [Datum.spine]⟩
  · have : readHash E.k (fuel + 1) s w (code 40) = (do
      let (c, s, w) ← readchar s w E.k
      let (l, s, w) ← readList E.k fuel s w c
      let (v, s) ← listToVector s E.k l
      ok (v, s, w)) := rfl
    rw [this, t1]
    simp only [ok_bind, m1, n1]
  · refine .vec n2.valid n2.tag (by rw [n2.length, v2]) (fun i hi => ?_) (fun i hi => ?_)
    · obtain ⟨v', hv'⟩ : ∃ v', vs[i]? = some v' := ⟨vs[i]'(by omega), List.getElem?_eq_getElem (by omega)⟩
      refine ⟨(n2.entry i v' hv').valid, fun ht => ?_⟩
      have := m3.rd.touch_lt ht
      rw [n5] at this
      omega
    · obtain ⟨v', hv'⟩ : ∃ v', vs[i]? = some v' := ⟨vs[i]'(by omega), List.getElem?_eq_getElem (by omega)⟩
      exact v3 i hi v' hv' s3 _ n3 (n2.entry i v' hv')

/-! ### Everything that can be written -/

/-- The text of a form is read as it should. -/
def FormOk (E : Env) : Form → List Byte → Prop
  | .datum d last, t => DatumOk E d last t
  | .tail d, t => TailOk E d t
  | .dotted d, t => TailOk E d t
  | .gap, t => GapOk E t

theorem Spec.Written.tail_ne {m : Nat} (h : Written m (.tail d) t ∨ Written m (.dotted d) t) : t ≠ [] := by
  rcases h with h | h
  · cases h with
    | close => simp
    | element h1 h2 hg h3 => obtain ⟨b, r, rfl, -⟩ := h3.start; simp
    | lastElement h1 h2 hg h3 => obtain ⟨b, r, rfl, -⟩ := h3.start; simp
  · cases h; simp

theorem Spec.Written.tail_kind {m : Nat} (h : Written m (.tail d) t) : d = .nil ∨ ∃ a b, d = .pair a b := by
  cases h with
  | close => exact .inl rfl
  | element => exact .inr ⟨_, _, rfl⟩
  | lastElement => exact .inr ⟨_, _, rfl⟩

theorem Spec.Written.ok {f : Form} (hm : 45 ≤ E.mx) (h : Written E.mx f t) : FormOk E f t := by
  induction h with
  | noGap => exact GapOk.none
  | blank hb _ ih => exact GapOk.blank hb ih
  | line hcs _ ih => exact GapOk.line hcs ih
  | block ht hcs _ ih => exact GapOk.block ht hcs ih
  | skip h1 h2 hs h3 ih1 ih2 ih3 => exact GapOk.skip ih1 h2.pos ih2 hs ih3
  | bool b => exact DatumOk.bool b
  | num sign hds hd hl hv => exact DatumOk.num sign hds hd hl hv rfl
  | radix neg hc hds hd hv => exact DatumOk.radix neg hc hds hd hv
  | chr b => exact DatumOk.chr b
  | chrName h => exact DatumOk.chrName h
  | str h hl => exact DatumOk.str h hl
  | sym h => exact DatumOk.sym h
  | kw h h' => exact DatumOk.kw hm h h'
  | quote hq h1 h2 hat ih1 ih2 => exact DatumOk.quote hq ih1 h2.pos ih2 hat
  | list h ih => exact DatumOk.list ih h.tail_kind
  | vec h ih => exact DatumOk.vec ih
  | close h => exact TailOk.close h
  | element h1 h2 hg h3 hs h4 ih2 ih3 ih4 => exact TailOk.element h1 ih2 hg h3.start ih3 hs (tail_ne (.inl h4)) ih4
  | lastElement h1 h2 hg h3 hs h4 ih2 ih3 ih4 => exact TailOk.element h1 ih2 hg h3.start ih3 hs (tail_ne (.inr h4)) ih4
  | dotted h1 h2 h3 hg h4 hs h5 hd ih3 ih4 => exact TailOk.dotted h1 h2 ih3 hg h4.start ih4 hs h5 hd

end Mes
