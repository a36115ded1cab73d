import Verif.Spec.Source
import Verif.Proof.ReadEnv
/-
What the reader makes of the text of a program is the program.
-/
namespace Mes
open Res Spec

variable {s s' : St} {H : List (List Byte × Int)} {P : Int → Prop} {ν : List Byte → Int} {mes : Bool} {W : Ghost}

/-- Different pairs from `lo` up to `hi`. -/
structure Cells (s : St) (L : List Int) (lo hi : Int) : Prop where
  nodup : L.Nodup
  range : ∀ a ∈ L, lo ≤ a ∧ a < hi
  pair : ∀ a ∈ L, (s.cell a).tag = .pair

theorem Cells.nil {lo hi : Int} : Cells s [] lo hi := ⟨List.nodup_nil, fun _ h => (by cases h), fun _ h => (by cases h)⟩

theorem Cells.mono {L : List Int} {lo lo' hi hi' : Int} (h : Cells s L lo hi) (hl : lo' ≤ lo) (hh : hi ≤ hi') : Cells s L lo' hi' :=
  ⟨h.nodup, fun a ha => by have := h.range a ha; omega, h.pair⟩

theorem Cells.app {L L' : List Int} {lo m hi : Int} (h : Cells s L lo m) (h' : Cells s L' m hi) (h1 : lo ≤ m) (h2 : m ≤ hi) : Cells s (L ++ L') lo hi := by
  refine ⟨List.nodup_append.2 ⟨h.nodup, h'.nodup, fun a ha b hb e => ?_⟩, fun a ha => ?_, fun a ha => (List.mem_append.1 ha).elim (h.pair a) (h'.pair a)⟩
  · have := h.range a ha; have := h'.range b hb; omega
  · rcases List.mem_append.1 ha with h1 | h1
    · have := h.range a h1; omega
    · have := h'.range a h1; omega

theorem Cells.cons {L : List Int} {lo hi hi' p : Int} (h : Cells s L lo hi) (h1 : lo ≤ hi) (hp : hi ≤ p) (hh : p < hi')
    (ht : (s.cell p).tag = .pair) : Cells s (p :: L) lo hi' := by
  refine ⟨List.nodup_cons.2 ⟨fun hm => ?_, h.nodup⟩, fun a ha => ?_, fun a ha => ?_⟩
  · have := h.range p hm; omega
  · rcases List.mem_cons.1 ha with rfl | h1
    · omega
    · have := h.range a h1; omega
  · rcases List.mem_cons.1 ha with rfl | h1
    · exact ht
    · exact h.pair a h1

/-- What is known about the memory after reading, whatever the program is. -/
structure ReadPre (s : St) (H : List (List Byte × Int)) (N : Int → Prop) (W : Ghost) : Prop where
  names : ∀ name a, lookup name H = some a → N a → IsName s W a
  fixed : ¬ W.chg c_nil ∧ ¬ W.chg c_t ∧ ¬ W.chg c_f

/-- The cells from `lo` up to `hi` belong to the program if they are in `L`, and do not change otherwise. -/
structure Split (W : Ghost) (L : List Int) (lo hi : Int) : Prop where
  src : ∀ a ∈ L, W.src a
  fixed : ∀ a, lo ≤ a → a < hi → a ∉ L → ¬ W.chg a

/-- A part of the program. -/
theorem Split.part {L L' : List Int} {lo hi lo' hi' : Int} (h : Split W L lo hi) (hs : ∀ a ∈ L', a ∈ L)
    (hr : ∀ a ∈ L, a ∈ L' ∨ a < lo' ∨ hi' ≤ a) (h1 : lo ≤ lo') (h2 : hi' ≤ hi) : Split W L' lo' hi' :=
  ⟨fun a ha => h.src a (hs a ha), fun a h3 h4 h5 => h.fixed a (by omega) (by omega) (fun hm => by rcases hr a hm with h | h | h; exact h5 h; omega; omega)⟩

theorem den_sym {p : Int} {name : List Byte} (h : Den s H P p (.sym name)) (hu : ∀ name', Datum.Uses name' (.sym name) → lookup name' H = some (ν name')) :
    p = ν name := by
  cases h with
  | sym _ _ hl _ =>
    have := hu name .here
    rw [hl] at this
    exact Option.some.inj this

theorem Spec.Printable.pair_ne {p : Int} (h : Printable s) (ht : (s.cell p).tag = .pair) : p ≠ c_nil := by
  rintro rfl
  rw [h.fixed c_nil (by decide) (by decide), if_pos (by decide)] at ht
  cases ht

theorem isDatum_ok {d : Datum} {l : Literal} (hm : IsDatum ν d l) : ∀ {p lo hi : Int}, Printable s → Den s H P p d → Fresh s lo hi p d →
    (∀ name, d.Uses name → lookup name H = some (ν name)) → (∀ a, lo ≤ a → a < hi → ¬ W.chg a) →
    IsLiteral s W.chg p l := by
  induction hm with
  | nil =>
    intro p lo hi hp h hf hu hw
    cases h
    exact .obj hp.nil.valid (by rw [hp.fixed _ (by decide) (by decide)]; decide) (by decide)
  | bool b =>
    intro p lo hi hp h hf hu hw
    cases h
    cases b
    · exact .obj hp.fls.valid (by rw [show (if false = true then c_t else c_f) = c_f from rfl, hp.fixed _ (by decide) (by decide)]; decide) (by decide)
    · exact .obj hp.tru.valid (by rw [show (if true = true then c_t else c_f) = c_t from rfl, hp.fixed _ (by decide) (by decide)]; decide) (by decide)
  | num n =>
    intro p lo hi hp h hf hu hw
    cases h with
    | num h =>
      cases hf with
      | other _ _ hn => obtain ⟨h1, h2, -⟩ := hn n (.inl rfl); exact .int h (hw _ h1 h2)
  | chr n =>
    intro p lo hi hp h hf hu hw
    cases h with
    | chr h =>
      cases hf with
      | other _ _ hn => obtain ⟨h1, h2, -⟩ := hn n (.inr rfl); exact .char h (hw _ h1 h2)
  | @sym name hne =>
    intro p lo hi hp h hf hu hw
    have e := den_sym h hu
    cases h with
    | sym h ht hl _ =>
      rw [← e]
      exact .obj h.valid (by rcases ht with ht | ht <;> rw [ht] <;> decide) (by rw [e]; exact hne)
  | pair _ _ ih1 ih2 =>
    intro p lo hi hp h hf hu hw
    cases h with
    | pair hv ht ha hd =>
      cases hf with
      | other h1 => exact absurd rfl (h1 _ _)
      | @pair _ m m' _ _ _ _ fa fb hp' hi' =>
        have l1 := fa.le
        have l2 := fb.le
        exact .pair ⟨hp.pair_ne ht, hv, ht, hw _ (by omega) hi'⟩ (ih1 hp ha fa (fun n hn => hu n (.car hn)) (fun a h1 h2 => hw a h1 (by omega)))
          (ih2 hp hd fb (fun n hn => hu n (.cdr hn)) (fun a h1 h2 => hw a (by omega) (by omega)))

theorem isParams_ok {N : Int → Prop} {d : Datum} {fs : List Int} {r : Option Int} (hm : IsParams ν N d fs r) : ∀ {p lo hi : Int}, Printable s →
    Den s H P p d → Fresh s lo hi p d → (∀ name, d.Uses name → lookup name H = some (ν name)) → ReadPre s H N W → (∀ a, lo ≤ a → a < hi → ¬ W.chg a) →
    IsFormals s W.chg p fs r := by
  induction hm with
  | nil =>
    intro p lo hi hp h hf hu hr hw
    cases h
    exact .nil
  | @rest name hn =>
    intro p lo hi hp h hf hu hr hw
    have e := den_sym h hu
    subst e
    have := hr.names _ _ (hu name .here) hn
    exact .rest this.text.valid this.tag this.fixed
  | @cons name d xs r hn _ ih =>
    intro p lo hi hp h hf hu hr hw
    cases h with
    | pair hv ht ha hd =>
      cases hf with
      | other h1 => exact absurd rfl (h1 _ _)
      | @pair _ m m' _ _ _ _ fa fb hp' hi' =>
        have l1 := fa.le
        have l2 := fb.le
        have e := den_sym ha (fun n hn => hu n (.car hn))
        have := hr.names _ _ (hu name (.car .here)) hn
        rw [← e] at this ⊢
        exact .cons ⟨hp.pair_ne ht, hv, ht, hw _ (by omega) hi'⟩ this.text.valid this.tag
          (ih hp hd fb (fun n hn => hu n (.cdr hn)) hr (fun a h1 h2 => hw a (by omega) (by omega)))

/-- The second word of an element of a list is not that of `(primitive-load …)`. -/
theorem notLoad_ok {d : Datum} {p lo hi : Int} (hl : NotLoad ν d) (hp : Printable s) (hb : c_symbol_max ≤ lo) (h : Den s H P p d) (hf : Fresh s lo hi p d)
    (hu : ∀ name, d.Uses name → lookup name H = some (ν name)) (hk : (∃ n, d = .str n) ∨ (∃ n, d = .kw n) ∨ (∃ n, d = .vec n) → False) :
    (s.cell p).car ≠ c_symbol_primitive_load := by
  have hsym : ∀ q : Int, (s.cell q).tag ≠ .symbol → q ≠ c_symbol_primitive_load := fun q hq e => hq (by
    rw [e, hp.fixed _ (by decide) (by decide)]; rfl)
  cases h with
  | nil => rw [hp.nil.length]; decide
  | bool b =>
    cases b
    · show (s.cell c_f).car ≠ _; rw [hp.fls.length]; decide
    · show (s.cell c_t).car ≠ _; rw [hp.tru.length]; decide
  | num h => cases hf with | other _ _ hn => rw [(hn _ (.inl rfl)).2.2]; decide
  | chr h => cases hf with | other _ _ hn => rw [(hn _ (.inr rfl)).2.2]; decide
  | str h => exact absurd (.inl ⟨_, rfl⟩) hk
  | sym h => rw [h.length]; exact hl
  | kw h => exact absurd (.inr (.inl ⟨_, rfl⟩)) hk
  | vec h => exact absurd (.inr (.inr ⟨_, rfl⟩)) hk
  | @pair _ a d' hv ht ha hd =>
    generalize (s.cell p).car = q at ha
    cases a with
    | sym name =>
      rw [den_sym ha (fun n hn => hu n (.car hn))]
      exact hl
    | nil => cases ha; decide
    | bool b => cases ha; cases b <;> decide
    | num n => cases ha with | num h => exact hsym _ (by rw [h.tag]; decide)
    | chr n => cases ha with | chr h => exact hsym _ (by rw [h.tag]; decide)
    | str n => cases ha with | str h => exact hsym _ (by rw [h.tag]; decide)
    | kw n => cases ha with | kw h ht => exact hsym _ (by rw [ht]; decide)
    | pair a b => cases ha with | pair _ ht => exact hsym _ (by rw [ht]; decide)
    | vec es => cases ha with | vec _ ht => exact hsym _ (by rw [ht]; decide)

theorem Spec.Means.kind {N : Int → Prop} {d : Datum} {e : Expr} (h : Means ν mes N d e) : (∃ n, d = .str n) ∨ (∃ n, d = .kw n) ∨ (∃ n, d = .vec n) → False := by
  cases h <;> simp

/-- The datum `d`, wherever it is in memory, is the expression `e`. -/
def ReadOk (s : St) (H : List (List Byte × Int)) (P : Int → Prop) (ν : List Byte → Int) (mes : Bool) (N : Int → Prop) (d : Datum) (e : Expr) : Prop :=
  ∀ p lo hi : Int, c_symbol_max ≤ lo → Den s H P p d → Fresh s lo hi p d → (∀ name, d.Uses name → lookup name H = some (ν name)) →
    ∃ L, Cells s L lo hi ∧ ∀ (W : Ghost) (N' : Idents), ReadPre s H N W → (∀ x, N x → N' x) → Split W L lo hi → IsSource s W mes N' p e L

/-- The same for lists. -/
def ReadSeqOk (s : St) (H : List (List Byte × Int)) (P : Int → Prop) (ν : List Byte → Int) (mes : Bool) (N : Int → Prop) (d : Datum) (es : List Expr) : Prop :=
  ∀ p lo hi : Int, c_symbol_max ≤ lo → Den s H P p d → Fresh s lo hi p d → (∀ name, d.Uses name → lookup name H = some (ν name)) →
    ∃ L, Cells s L lo hi ∧ ∀ (W : Ghost) (N' : Idents), ReadPre s H N W → (∀ x, N x → N' x) → Split W L lo hi → IsSources s W mes N' p es L

/-- The two parts of a pair. -/
theorem den_pair {a d : Datum} {p lo hi : Int} (h : Den s H P p (.pair a d)) (hf : Fresh s lo hi p (.pair a d)) :
    ∃ m m', s.Valid p ∧ (s.cell p).tag = .pair ∧ Den s H P (s.cell p).car a ∧ Den s H P (s.cell p).cdr d ∧ Fresh s lo m (s.cell p).car a ∧
      Fresh s m m' (s.cell p).cdr d ∧ lo ≤ m ∧ m ≤ m' ∧ m' ≤ p ∧ p < hi := by
  cases h with
  | pair hv ht ha hd =>
    cases hf with
    | other h1 => exact absurd rfl (h1 _ _)
    | pair fa fb hp hi => exact ⟨_, _, hv, ht, ha, hd, fa, fb, fa.le, fb.le, hp, hi⟩

theorem sources_cons {N : Int → Prop} {d ds : Datum} {e : Expr} {es : List Expr} (hp : Printable s) (h : ReadOk s H P ν mes N d e)
    (hs : ReadSeqOk s H P ν mes N ds es) (hl : NotLoad ν d) (hk : (∃ n, d = .str n) ∨ (∃ n, d = .kw n) ∨ (∃ n, d = .vec n) → False) :
    ReadSeqOk s H P ν mes N (.pair d ds) (e :: es) := by
  intro p lo hi hb hd hf hu
  obtain ⟨m, m', hv, ht, ha, hd, fa, fb, l1, l2, l3, l4⟩ := den_pair hd hf
  obtain ⟨L, c1, k1⟩ := h _ _ _ hb ha fa (fun n hn => hu n (.car hn))
  obtain ⟨L', c2, k2⟩ := hs _ _ _ (by omega) hd fb (fun n hn => hu n (.cdr hn))
  refine ⟨p :: (L ++ L'), (c1.app c2 l1 l2).cons (by omega) l3 l4 ht, fun W N' hr hN hsp => ?_⟩
  refine .cons ⟨hp.pair_ne ht, hv, ht, hsp.src p (by simp)⟩ (k1 W N' hr hN (hsp.part (by simp +contextual) (fun a ha => ?_) (by omega) (by omega)))
    (notLoad_ok hl hp hb ha fa (fun n hn => hu n (.car hn)) hk) (k2 W N' hr hN (hsp.part (by simp +contextual) (fun a ha => ?_) (by omega) (by omega)))
  · rcases List.mem_cons.1 ha with rfl | ha
    · omega
    · rcases List.mem_append.1 ha with ha | ha
      · exact .inl ha
      · have := c2.range a ha; omega
  · rcases List.mem_cons.1 ha with rfl | ha
    · omega
    · rcases List.mem_append.1 ha with ha | ha
      · have := c1.range a ha; omega
      · exact .inl ha

/-- A special form whose other elements are expressions. -/
theorem source_form {N : Int → Prop} {name : List Byte} {ds : Datum} {e : Expr} {es : List Expr} (hp : Printable s)
    (hs : ReadSeqOk s H P ν mes N ds es)
    (mk : ∀ (W : Ghost) (N' : Idents) (p : Int) (L : List Int), SrcPair s W p → (s.cell p).car = ν name → IsSources s W mes N' (s.cell p).cdr es L →
      IsSource s W mes N' p e (p :: L)) :
    ReadOk s H P ν mes N (.pair (.sym name) ds) e := by
  intro p lo hi hb hd hf hu
  obtain ⟨m, m', hv, ht, ha, hd, fa, fb, l1, l2, l3, l4⟩ := den_pair hd hf
  obtain ⟨L, c2, k2⟩ := hs _ _ _ (by omega) hd fb (fun n hn => hu n (.cdr hn))
  refine ⟨p :: L, (c2.mono l1 (Int.le_refl _)).cons (by omega) l3 l4 ht, fun W N' hr hN hsp => ?_⟩
  refine mk W N' p L ⟨hp.pair_ne ht, hv, ht, hsp.src p (by simp)⟩ (den_sym ha (fun n hn => hu n (.car hn)))
    (k2 W N' hr hN (hsp.part (by simp +contextual) (fun a ha => ?_) (by omega) (by omega)))
  rcases List.mem_cons.1 ha with rfl | ha
  · omega
  · exact .inl ha

/-- Literals that stand for themselves. -/
theorem source_const {N : Int → Prop} {d : Datum} {l : Literal} (hp : Printable s) (h : IsDatum ν d l)
    (hk : (∀ name, d ≠ .sym name) ∧ ∀ a b, d ≠ .pair a b) : ReadOk s H P ν mes N d (.const l) := by
  intro p lo hi hb hd hf hu
  refine ⟨[], .nil, fun W N' hr hN hsp => ?_⟩
  have hl := isDatum_ok (W := W) h hp hd hf hu (fun a h1 h2 => hsp.fixed a h1 h2 (by simp))
  cases h with
  | nil => cases hd; exact .const hl (by rw [hp.fixed _ (by decide) (by decide)]; decide) hr.fixed.1
  | bool b =>
    cases hd
    cases b
    · exact .const hl (by rw [show (if false = true then c_t else c_f) = c_f from rfl, hp.fixed _ (by decide) (by decide)]; decide) hr.fixed.2.2
    · exact .const hl (by rw [show (if true = true then c_t else c_f) = c_t from rfl, hp.fixed _ (by decide) (by decide)]; decide) hr.fixed.2.1
  | num n =>
    cases hl with
    | int h hm => exact .const (.int h hm) (by rw [h.tag]; decide) hm
  | chr n =>
    cases hl with
    | char h hm => exact .const (.char h hm) (by rw [h.tag]; decide) hm
  | sym => exact absurd rfl (hk.1 _)
  | pair => exact absurd rfl (hk.2 _ _)

theorem source_var {N : Int → Prop} {name : List Byte} (hn : N (ν name)) (hr : ¬ Reserved (ν name)) (hk : ¬ Keyword (ν name)) (hs : ν name ≠ c_symbol_set_x) :
    ReadOk s H P ν mes N (.sym name) (.var (ν name)) := by
  intro p lo hi hb hd hf hu
  have e := den_sym hd hu
  subst e
  exact ⟨[], .nil, fun W N' hp hN hsp => .var (hp.names _ _ (hu name .here) hn) (hN _ hn) hr hk hs⟩

theorem source_quote {N : Int → Prop} {d : Datum} {l : Literal} (hν : Naming ν) (hp : Printable s) (h : IsDatum ν d l) :
    ReadOk s H P ν mes N (.pair (.sym nameQuote) (.pair d .nil)) (.quote l) := by
  intro p lo hi hb hd hf hu
  obtain ⟨m, m', hv, ht, ha, hd, fa, fb, l1, l2, l3, l4⟩ := den_pair hd hf
  obtain ⟨n, n', hv1, ht1, ha1, hd1, fa1, fb1, q1, q2, q3, q4⟩ := den_pair hd fb
  refine ⟨[], .nil, fun W N' hr hN hsp => ?_⟩
  have fx : ∀ a, lo ≤ a → a < hi → ¬ W.chg a := fun a h1 h2 => hsp.fixed a h1 h2 (by simp)
  exact .quote ⟨hp.pair_ne ht, hv, ht, fx _ (by omega) l4⟩ (by rw [den_sym ha (fun n hn => hu n (.car hn)), hν.quote])
    ⟨hp.pair_ne ht1, hv1, ht1, fx _ (by omega) (by omega)⟩
    (isDatum_ok h hp ha1 fa1 (fun n hn => hu n (.cdr (.car hn))) (fun a h1 h2 => fx a (by omega) (by omega)))

theorem source_lam {N : Int → Prop} {p ds : Datum} {fs : List Int} {r : Option Int} {b : List Expr} (hν : Naming ν) (hpr : Printable s)
    (hp : IsParams ν N p fs r) (hb : ReadSeqOk s H P ν mes N ds b) (hn : b ≠ []) :
    ReadOk s H P ν mes N (.pair (.sym nameLambda) (.pair p ds)) (.lam fs r b) := by
  intro p lo hi hbase hd hf hu
  obtain ⟨m, m', hv, ht, ha, hd, fa, fb, l1, l2, l3, l4⟩ := den_pair hd hf
  obtain ⟨n, n', hv1, ht1, ha1, hd1, fa1, fb1, q1, q2, q3, q4⟩ := den_pair hd fb
  obtain ⟨L, c2, k2⟩ := hb _ _ _ (by omega) hd1 fb1 (fun n hn => hu n (.cdr (.cdr hn)))
  have hc : Cells s ((s.cell p).cdr :: L) lo m' := (c2.mono (by omega) (Int.le_refl _)).cons (by omega) q3 q4 ht1
  refine ⟨p :: (s.cell p).cdr :: L, hc.cons (by omega) l3 l4 ht, fun W N' hr hN hsp => ?_⟩
  refine .lam ⟨hpr.pair_ne ht, hv, ht, hsp.src _ (by simp)⟩ (by rw [den_sym ha (fun n hn => hu n (.car hn)), hν.lambda])
    ⟨hpr.pair_ne ht1, hv1, ht1, hsp.src _ (by simp)⟩
    (isParams_ok hp hpr ha1 fa1 (fun n hn => hu n (.cdr (.car hn))) hr (fun a h1 h2 => hsp.fixed a (by omega) (by omega) (fun hm => ?_)))
    (k2 W (N'.under fs r) hr hN (hsp.part (by simp +contextual) (fun a ha => ?_) (by omega) (by omega))) hn
  · simp only [List.mem_cons] at hm
    rcases hm with rfl | rfl | hm
    · omega
    · omega
    · have := c2.range a hm; omega
  · simp only [List.mem_cons] at ha
    rcases ha with rfl | rfl | ha
    · omega
    · omega
    · exact .inl ha

theorem source_app {N : Int → Prop} {df ds : Datum} {f : Expr} {args : List Expr} (hpr : Printable s) (hh : ∀ name, df = .sym name → ¬ SpecialForm (ν name))
    (hf : ReadOk s H P ν mes N df f) (ha : ReadSeqOk s H P ν mes N ds args) (hs : mes = false → Direct f) :
    ReadOk s H P ν mes N (.pair df ds) (.app f args) := by
  have hsp' : ∀ q : Int, (s.cell q).tag ≠ .symbol ∧ (s.cell q).tag ≠ .special → ¬ SpecialForm q := by
    intro q hq hs
    unfold SpecialForm at hs
    have : c_nil ≤ q ∧ q < c_symbol_max := by
      rcases hs with rfl | rfl | rfl | rfl | rfl | rfl | rfl | rfl | rfl | rfl <;> decide
    have ht := hpr.fixed q this.1 this.2
    split at ht <;> simp [ht] at hq
  intro p lo hi hb hd hfr hu
  obtain ⟨m, m', hv, ht, hda, hd, fa, fb, l1, l2, l3, l4⟩ := den_pair hd hfr
  obtain ⟨L, c1, k1⟩ := hf _ _ _ hb hda fa (fun n hn => hu n (.car hn))
  obtain ⟨L', c2, k2⟩ := ha _ _ _ (by omega) hd fb (fun n hn => hu n (.cdr hn))
  refine ⟨p :: (L ++ L'), (c1.app c2 l1 l2).cons (by omega) l3 l4 ht, fun W N' hr hN hsp => ?_⟩
  refine .app ⟨hpr.pair_ne ht, hv, ht, hsp.src p (by simp)⟩ ?_ (k1 W N' hr hN (hsp.part (by simp +contextual) (fun a ha => ?_) (by omega) (by omega)))
    (k2 W N' hr hN (hsp.part (by simp +contextual) (fun a ha => ?_) (by omega) (by omega))) hs
  · generalize (s.cell p).car = q at hda
    cases df with
    | sym name => rw [den_sym hda (fun n hn => hu n (.car hn))]; exact hh name rfl
    | nil => cases hda; unfold SpecialForm; decide
    | bool b => cases hda; cases b <;> (unfold SpecialForm; decide)
    | num n => cases hda with | num h => exact hsp' _ (by rw [h.tag]; decide)
    | chr n => cases hda with | chr h => exact hsp' _ (by rw [h.tag]; decide)
    | str n => cases hda with | str h => exact hsp' _ (by rw [h.tag]; decide)
    | kw n => cases hda with | kw h ht => exact hsp' _ (by rw [ht]; decide)
    | pair a b => cases hda with | pair _ ht => exact hsp' _ (by rw [ht]; decide)
    | vec es => cases hda with | vec _ ht => exact hsp' _ (by rw [ht]; decide)
  · rcases List.mem_cons.1 ha with rfl | ha
    · omega
    · rcases List.mem_append.1 ha with ha | ha
      · exact .inl ha
      · have := c2.range a ha; omega
  · rcases List.mem_cons.1 ha with rfl | ha
    · omega
    · rcases List.mem_append.1 ha with ha | ha
      · have := c1.range a ha; omega
      · exact .inl ha

theorem source_set {N : Int → Prop} {name : List Byte} {ds : Datum} {e : Expr} (hν : Naming ν) (hpr : Printable s) (hn : N (ν name)) (hk : ¬ Keyword (ν name))
    (h : ReadSeqOk s H P ν mes N ds [e]) : ReadOk s H P ν mes N (.pair (.sym nameSet) (.pair (.sym name) ds)) (.set (ν name) e) := by
  intro p lo hi hb hd hf hu
  obtain ⟨m, m', hv, ht, ha, hd, fa, fb, l1, l2, l3, l4⟩ := den_pair hd hf
  obtain ⟨n, n', hv1, ht1, ha1, hd1, fa1, fb1, q1, q2, q3, q4⟩ := den_pair hd fb
  obtain ⟨L, c2, k2⟩ := h _ _ _ (by omega) hd1 fb1 (fun n hn => hu n (.cdr (.cdr hn)))
  have hc : Cells s ((s.cell p).cdr :: L) lo m' := (c2.mono (by omega) (Int.le_refl _)).cons (by omega) q3 q4 ht1
  refine ⟨p :: (s.cell p).cdr :: L, hc.cons (by omega) l3 l4 ht, fun W N' hr hN hsp => ?_⟩
  have e1 := den_sym ha1 (fun n hn => hu n (.cdr (.car hn)))
  refine .set ⟨hpr.pair_ne ht, hv, ht, hsp.src _ (by simp)⟩ (by rw [den_sym ha (fun n hn => hu n (.car hn)), hν.set])
    ⟨hpr.pair_ne ht1, hv1, ht1, hsp.src _ (by simp)⟩ ?_ hk
    (k2 W N' hr hN (hsp.part (by simp +contextual) (fun a ha => ?_) (by omega) (by omega)))
  · rw [e1]; exact .name (hr.names _ _ (hu name (.cdr (.car .here))) hn) (hN _ hn)
  · simp only [List.mem_cons] at ha
    rcases ha with rfl | rfl | ha
    · omega
    · omega
    · exact .inl ha

mutual
theorem means_ok (hν : Naming ν) (hp : Printable s) : ∀ {N : Int → Prop} {d : Datum} {e : Expr}, Means ν mes N d e → ReadOk s H P ν mes N d e
  | _, _, _, .nil => source_const (ν := ν) hp .nil (by simp)
  | _, _, _, .bool b => source_const (ν := ν) hp (.bool b) (by simp)
  | _, _, _, .num n => source_const (ν := ν) hp (.num n) (by simp)
  | _, _, _, .chr n => source_const (ν := ν) hp (.chr n) (by simp)
  | _, _, _, .var hn hr hk hs => source_var hn hr hk hs
  | _, _, _, .quote h => source_quote hν hp h
  | _, _, _, .ite h => source_form hp (meansSeq_ok hν hp h) (fun W N' p L h1 h2 h3 => .ite h1 (by rw [h2, hν.ifs]) h3)
  | _, _, _, .ifOnly h => source_form hp (meansSeq_ok hν hp h) (fun W N' p L h1 h2 h3 => .ifOnly h1 (by rw [h2, hν.ifs]) h3)
  | _, _, _, .lam h hb hn => source_lam hν hp h (meansSeq_ok hν hp hb) hn
  | _, _, _, .app hh hf ha hs => source_app hp hh (means_ok hν hp hf) (meansSeq_ok hν hp ha) hs
  | _, _, _, .begin h hn => source_form hp (meansSeq_ok hν hp h) (fun W N' p L h1 h2 h3 => .begin h1 (by rw [h2, hν.begin]) h3 hn)
  | _, _, _, .set hn hk h => source_set hν hp hn hk (meansSeq_ok hν hp h)
theorem meansSeq_ok (hν : Naming ν) (hp : Printable s) : ∀ {N : Int → Prop} {d : Datum} {es : List Expr}, MeansSeq ν mes N d es → ReadSeqOk s H P ν mes N d es
  | _, _, _, .nil => fun p lo hi hb hd hf hu => by
    cases hd
    exact ⟨[], .nil, fun W N' hr hN hsp => .nil⟩
  | _, _, _, .cons h hl hs => sources_cons hp (means_ok hν hp h) (meansSeq_ok hν hp hs) hl h.kind
end

/-! ### Top level forms and programs -/

/-- The datum, wherever it is in memory, is the top level form. -/
def ReadTopOk (s : St) (H : List (List Byte × Int)) (P : Int → Prop) (ν : List Byte → Int) (mes : Bool) (N : Int → Prop) (d : Datum) (f : Toplevel) : Prop :=
  ∀ p lo hi : Int, c_symbol_max ≤ lo → Den s H P p d → Fresh s lo hi p d → (∀ name, d.Uses name → lookup name H = some (ν name)) →
    ∃ L, Cells s L lo hi ∧ ∀ (W : Ghost) (free : Int → Prop), ReadPre s H N W → Split W L lo hi → IsTop s W mes ⟨N, free⟩ p f L

theorem meansTop_ok {N : Int → Prop} {d : Datum} {f : Toplevel} (hν : Naming ν) (hpr : Printable s) (h : MeansTop ν mes N d f) : ReadTopOk s H P ν mes N d f := by
  cases h with
  | expr h =>
    intro p lo hi hb hd hf hu
    obtain ⟨L, c, k⟩ := means_ok hν hpr h _ _ _ hb hd hf hu
    exact ⟨L, c, fun W free hr hsp => .expr (k W ⟨N, free⟩ hr (fun _ h => h) hsp)⟩
  | @define name ds e hn hfn h =>
    intro p lo hi hb hd hf hu
    obtain ⟨m, m', hv, ht, ha, hd, fa, fb, l1, l2, l3, l4⟩ := den_pair hd hf
    obtain ⟨n, n', hv1, ht1, ha1, hd1, fa1, fb1, q1, q2, q3, q4⟩ := den_pair hd fb
    have e1 := den_sym ha1 (fun n hn => hu n (.cdr (.car hn)))
    obtain ⟨L, c2, k2⟩ : ∃ L, Cells s L n n' ∧ ∀ (W : Ghost) (free : Int → Prop), ReadPre s H N W → Split W L n n' →
        (∃ fs r b, e = .lam fs r b) ∧ IsSources s W mes ⟨N, free⟩ (s.cell (s.cell p).cdr).cdr [e] L ∨
        IsSources s W mes (Idents.without ⟨N, free⟩ (ν name)) (s.cell (s.cell p).cdr).cdr [e] L := by
      rcases h with ⟨hl, h⟩ | h
      · obtain ⟨L, c2, k2⟩ := meansSeq_ok hν hpr h _ _ _ (by omega) hd1 fb1 (fun n hn => hu n (.cdr (.cdr hn)))
        exact ⟨L, c2, fun W free hr hsp => .inl ⟨hl, k2 W ⟨N, free⟩ hr (fun _ h => h) hsp⟩⟩
      · obtain ⟨L, c2, k2⟩ := meansSeq_ok hν hpr h _ _ _ (by omega) hd1 fb1 (fun n hn => hu n (.cdr (.cdr hn)))
        exact ⟨L, c2, fun W free hr hsp => .inr (k2 W _ ⟨fun n a h1 h2 => hr.names n a h1 h2.1, hr.fixed⟩ (fun _ h => h) hsp)⟩
    have hc : Cells s ((s.cell p).cdr :: L) lo m' := (c2.mono (by omega) (Int.le_refl _)).cons (by omega) q3 q4 ht1
    refine ⟨p :: (s.cell p).cdr :: L, hc.cons (by omega) l3 l4 ht, fun W free hr hsp => ?_⟩
    refine .define ⟨hpr.pair_ne ht, hv, ht, hsp.src _ (by simp)⟩ (by rw [den_sym ha (fun n hn => hu n (.car hn)), hν.define])
      ⟨hpr.pair_ne ht1, hv1, ht1, hsp.src _ (by simp)⟩ e1 (hr.names _ _ (hu name (.cdr (.car .here))) hn) hn hfn
      (k2 W free hr (hsp.part (by simp +contextual) (fun a ha => ?_) (by omega) (by omega)))
    simp only [List.mem_cons] at ha
    rcases ha with rfl | rfl | ha
    · omega
    · omega
    · exact .inl ha
  | @function name pd ds fs r b hn hfn hp hb hne =>
    intro p lo hi hbase hd hf hu
    obtain ⟨m, m', hv, ht, ha, hd, fa, fb, l1, l2, l3, l4⟩ := den_pair hd hf
    obtain ⟨n, n', hv1, ht1, ha1, hd1, fa1, fb1, q1, q2, q3, q4⟩ := den_pair hd fb
    obtain ⟨o, o', hv2, ht2, ha2, hd2, fa2, fb2, o1, o2, o3, o4⟩ := den_pair ha1 fa1
    obtain ⟨L, c2, k2⟩ := meansSeq_ok hν hpr hb _ _ _ (by omega) hd1 fb1 (fun n hn => hu n (.cdr (.cdr hn)))
    have hc : Cells s ((s.cell p).cdr :: L) lo m' := (c2.mono (by omega) (Int.le_refl _)).cons (by omega) q3 q4 ht1
    refine ⟨p :: (s.cell p).cdr :: L, hc.cons (by omega) l3 l4 ht, fun W free hr hsp => ?_⟩
    have hout : ∀ a, m ≤ a → a < n → ¬ W.chg a := fun a h1 h2 => hsp.fixed a (by omega) (by omega) (fun hm => by
      simp only [List.mem_cons] at hm
      rcases hm with rfl | rfl | hm
      · omega
      · omega
      · have := c2.range a hm; omega)
    refine .function ⟨hpr.pair_ne ht, hv, ht, hsp.src _ (by simp)⟩ (by rw [den_sym ha (fun n hn => hu n (.car hn)), hν.define])
      ⟨hpr.pair_ne ht1, hv1, ht1, hsp.src _ (by simp)⟩ rfl ⟨hpr.pair_ne ht2, hv2, ht2, hout _ (by omega) (by omega)⟩
      (den_sym ha2 (fun n hn => hu n (.cdr (.car (.car hn))))) (hr.names _ _ (hu name (.cdr (.car (.car .here)))) hn) hn hfn
      (isParams_ok hp hpr hd2 fb2 (fun n hn => hu n (.cdr (.car (.cdr hn)))) hr (fun a h1 h2 => hout a (by omega) (by omega)))
      (k2 W _ hr (fun _ h => h) (hsp.part (by simp +contextual) (fun a ha => ?_) (by omega) (by omega))) hne
    simp only [List.mem_cons] at ha
    rcases ha with rfl | rfl | ha
    · omega
    · omega
    · exact .inl ha

theorem Spec.MeansTop.kind {N : Int → Prop} {d : Datum} {f : Toplevel} (h : MeansTop ν mes N d f) : (∃ n, d = .str n) ∨ (∃ n, d = .kw n) ∨ (∃ n, d = .vec n) → False := by
  cases h with
  | expr h => exact h.kind
  | define => simp
  | function => simp

/-- The data of a text, as a list in memory, are the program. -/
theorem meansProgram_ok {N : Int → Prop} {ds : List Datum} {fs : List Toplevel} (hν : Naming ν) (hpr : Printable s) (h : MeansProgram ν mes N ds fs) :
    ∀ p lo hi : Int, c_symbol_max ≤ lo → Den s H P p (.list ds) → Fresh s lo hi p (.list ds) → (∀ name, (Datum.list ds).Uses name → lookup name H = some (ν name)) →
    ∃ L, Cells s L lo hi ∧ ∀ (W : Ghost) (free : Int → Prop), ReadPre s H N W → Split W L lo hi → IsProgram s W mes ⟨N, free⟩ p fs L := by
  induction h with
  | nil =>
    intro p lo hi hb hd hf hu
    cases hd
    exact ⟨[], .nil, fun W free hr hsp => .nil⟩
  | @form d ds f fs h hl hb _ ih =>
    intro p lo hi hbase hd hf hu
    obtain ⟨m, m', hv, ht, ha, hd, fa, fb, l1, l2, l3, l4⟩ := den_pair hd hf
    obtain ⟨L, c1, k1⟩ := meansTop_ok hν hpr h _ _ _ hbase ha fa (fun n hn => hu n (.car hn))
    obtain ⟨L', c2, k2⟩ := ih _ _ _ (by omega) hd fb (fun n hn => hu n (.cdr hn))
    refine ⟨L ++ L', (c1.app c2 l1 l2).mono (Int.le_refl _) (by omega), fun W free hr hsp => ?_⟩
    have hno : p ∉ L ++ L' := fun hm => by have := (c1.app c2 l1 l2).range p hm; omega
    refine .form ⟨hpr.pair_ne ht, hv, ht, hsp.fixed p (by omega) l4 hno⟩ (k1 W free hr (hsp.part (by simp +contextual) (fun a ha => ?_) (by omega) (by omega)))
      (notLoad_ok hl hpr hbase ha fa (fun n hn => hu n (.car hn)) h.kind) ?_ (k2 W free hr (hsp.part (by simp +contextual) (fun a ha => ?_) (by omega) (by omega)))
    · rcases List.mem_append.1 ha with ha | ha
      · exact .inl ha
      · have := c2.range a ha; omega
    · rintro ⟨t1, t2⟩
      generalize (s.cell p).car = q at *
      cases ha with
      | nil => rw [hpr.fixed _ (by decide) (by decide)] at t1; cases t1
      | bool b => cases b <;> (simp only [Bool.false_eq_true, if_false, if_true] at t1; rw [hpr.fixed _ (by decide) (by decide)] at t1; cases t1)
      | num h0 => rw [h0.tag] at t1; cases t1
      | chr h0 => rw [h0.tag] at t1; cases t1
      | str h0 => rw [h0.tag] at t1; cases t1
      | sym _ ht => rcases ht with ht | ht <;> rw [ht] at t1 <;> cases t1
      | kw _ ht => rw [ht] at t1; cases t1
      | vec _ ht => rw [ht] at t1; cases t1
      | @pair _ a d' _ _ ha' _ =>
        have hsym : (s.cell (s.cell q).car).tag = .symbol := by rw [t2, hpr.fixed _ (by decide) (by decide)]; rfl
        cases a with
        | sym name => exact hb name d' rfl (by rw [← den_sym ha' (fun n hn => hu n (.car (.car hn)))]; exact t2)
        | nil => generalize (s.cell q).car = z at *; cases ha'; cases t2
        | bool b => generalize (s.cell q).car = z at *; cases ha'; cases b <;> cases t2
        | num n => generalize (s.cell q).car = z at *; cases ha' with | num h => rw [h.tag] at hsym; cases hsym
        | chr n => generalize (s.cell q).car = z at *; cases ha' with | chr h => rw [h.tag] at hsym; cases hsym
        | str n => generalize (s.cell q).car = z at *; cases ha' with | str h => rw [h.tag] at hsym; cases hsym
        | kw n => generalize (s.cell q).car = z at *; cases ha' with | kw h ht => rw [ht] at hsym; cases hsym
        | pair a b => generalize (s.cell q).car = z at *; cases ha' with | pair _ ht => rw [ht] at hsym; cases hsym
        | vec es => generalize (s.cell q).car = z at *; cases ha' with | vec _ ht => rw [ht] at hsym; cases hsym
    · rcases List.mem_append.1 ha with ha | ha
      · have := c1.range a ha; omega
      · exact .inl ha
  | @block d ds ds' f fs fs' h hl _ _ ih1 ih2 =>
    intro p lo hi hbase hd hf hu
    obtain ⟨m, m', hv, ht, ha, hd, fa, fb, l1, l2, l3, l4⟩ := den_pair hd hf
    obtain ⟨n, n', hv1, ht1, ha1, hd1, fa1, fb1, q1, q2, q3, q4⟩ := den_pair ha fa
    obtain ⟨o, o', hv2, ht2, ha2, hd2, fa2, fb2, o1, o2, o3, o4⟩ := den_pair hd1 fb1
    obtain ⟨L, c1, k1⟩ := meansTop_ok hν hpr h _ _ _ (by omega) ha2 fa2 (fun n hn => hu n (.car (.cdr (.car hn))))
    obtain ⟨L', c2, k2⟩ := ih1 _ _ _ (by omega) hd2 fb2 (fun n hn => hu n (.car (.cdr (.cdr hn))))
    obtain ⟨L'', c3, k3⟩ := ih2 _ _ _ (by omega) hd fb (fun n hn => hu n (.cdr hn))
    have c12 : Cells s (L ++ L') n o' := c1.app c2 o1 o2
    have c : Cells s (L ++ L' ++ L'') lo m' := (c12.mono (by omega) (by omega)).app c3 (by omega) l2
    refine ⟨L ++ (L' ++ L''), by rw [← List.append_assoc]; exact c.mono (Int.le_refl _) (by omega), fun W free hr hsp => ?_⟩
    have hmem : ∀ a, a ∈ L ++ (L' ++ L'') → a ∈ L ∧ n ≤ a ∧ a < o ∨ a ∈ L' ∧ o ≤ a ∧ a < o' ∨ a ∈ L'' ∧ m ≤ a ∧ a < m' := fun a ha => by
      simp only [List.mem_append] at ha
      rcases ha with h | h | h
      · exact .inl ⟨h, c1.range a h⟩
      · exact .inr (.inl ⟨h, c2.range a h⟩)
      · exact .inr (.inr ⟨h, c3.range a h⟩)
    refine .block ⟨hpr.pair_ne ht, hv, ht, hsp.fixed p (by omega) l4 (fun hm => by have := hmem _ hm; omega)⟩
      ⟨hpr.pair_ne ht1, hv1, ht1, hsp.fixed _ (by omega) (by omega) (fun hm => by have := hmem _ hm; omega)⟩
      (by rw [den_sym ha1 (fun n hn => hu n (.car (.car hn))), hν.begin]) rfl
      ⟨hpr.pair_ne ht2, hv2, ht2, hsp.fixed _ (by omega) (by omega) (fun hm => by have := hmem _ hm; omega)⟩
      (k1 W free hr (hsp.part (by simp +contextual) (fun a ha => ?_) (by omega) (by omega)))
      (notLoad_ok hl hpr (by omega) ha2 fa2 (fun n hn => hu n (.car (.cdr (.car hn)))) h.kind)
      (k2 W free hr (hsp.part (by simp +contextual) (fun a ha => ?_) (by omega) (by omega)))
      (k3 W free hr (hsp.part (by simp +contextual) (fun a ha => ?_) (by omega) (by omega)))
    · rcases hmem a ha with h | h | h
      · exact .inl h.1
      · omega
      · omega
    · rcases hmem a ha with h | h | h
      · omega
      · exact .inl h.1
      · omega
    · rcases hmem a ha with h | h | h
      · omega
      · omega
      · exact .inl h.1

end Mes
