import Verif.Proof.Tree
import Verif.Proof.Lists
import Verif.Spec.Sample
/-
Properties C11, C12: assq, memq, assoc and equal? (/repo/src/core.c, /repo/src/lib.c).

`AtomAt s p a` (Spec/Tree.lean): the address `p` denotes the atom `a`; eq? is equality of atoms.
`Rep s p t`: the address `p` denotes the tree `t`; equal? is equality of trees.
-/
namespace Mes.Props
open Res Spec

/-! ## C12 -/

/-- eq? is equality of atoms. -/
theorem C12_eq {s : St} {x y : Int} {a b : Atom} (hx : AtomAt s x a) (hy : AtomAt s y b) :
    eqP s x y = ok (if a = b then c_t else c_f) := eqP_ok hx hy

/-- equal? says #t exactly for equal trees and #f for different ones. -/
theorem C12_equal {s : St} {fuel : Nat} {a b : Int} {t u : Tree} (ha : Rep s a t) (hb : Rep s b u)
    (hf : t.size ≤ fuel) : (equal2 s fuel a b = ok c_t ↔ t = u) ∧ (equal2 s fuel a b = ok c_f ↔ t ≠ u) := by
  obtain ⟨h1, h2⟩ := equal2_ok ha fuel b u hb hf
  by_cases h : t = u
  · rw [h1 h]
    exact ⟨⟨fun _ => h, fun _ => rfl⟩, ⟨fun e => (by simp at e; exact absurd e (by decide)), fun e => absurd h e⟩⟩
  · rw [h2 h]
    exact ⟨⟨fun e => (by simp at e; exact absurd e (by decide)), fun e => absurd e h⟩, ⟨fun _ => h, fun _ => rfl⟩⟩

/-- equal? is reflexive, symmetric and transitive. -/
theorem C12_equivalence {s : St} {fuel : Nat} {a b c : Int} {t u v : Tree} (ha : Rep s a t) (hb : Rep s b u)
    (hc : Rep s c v) (hf : t.size ≤ fuel ∧ u.size ≤ fuel) :
    equal2 s fuel a a = ok c_t ∧ (equal2 s fuel a b = ok c_t → equal2 s fuel b a = ok c_t) ∧
      (equal2 s fuel a b = ok c_t → equal2 s fuel b c = ok c_t → equal2 s fuel a c = ok c_t) := by
  refine ⟨(C12_equal ha ha hf.1).1.2 rfl, fun h => ?_, fun h h' => ?_⟩
  · exact (C12_equal hb ha hf.2).1.2 ((C12_equal ha hb hf.1).1.1 h).symm
  · exact (C12_equal ha hc hf.1).1.2 (((C12_equal ha hb hf.1).1.1 h).trans ((C12_equal hb hc hf.2).1.1 h'))

/-- What was built before is still there, and still equal, after allocating. -/
theorem C12_stable {s s' : St} {a : Int} {t : Tree} (h : Rep s a t) (hf : Ext s s') : Rep s' a t := h.ext hf

/-- Two copies of (7 #(b "a")): at 116 and at 132. -/
def twice : St :=
  let one (o : Int) : List Cell :=
    [pair (o + 1) (o + 2), num 7, pair (o + 3) c_nil, { tag := .vector, car := 2, cdr := o + 4 },
      { tag := .char, car := 0, cdr := 98 }, { tag := .ref, car := o + 6, cdr := 0 },
      { tag := .string, car := 1, cdr := o + 7 }, { tag := .bytes, car := 2, cdr := 0, bytes := [97, 0] },
      default, default, default, default, default, default, default, default]
  sample (one 116 ++ one 132)
def twiceTree : Tree := .pair (.atom (.num 7)) (.pair (.vec [.atom (.chr 98), .str [97]]) (.atom (.obj c_nil)))

theorem twice_rep (o : Int) (h : o = 116 ∨ o = 132) : Rep twice o twiceTree := by
  rcases h with rfl | rfl
  all_goals
    refine .pair (by decide) rfl (.atom (.num ⟨by decide, rfl, rfl⟩) ?_ ?_ ?_ ?_) (.pair (by decide) rfl
      (.vec (by decide) rfl rfl ?_ ?_) (.atom (.obj ?_ ?_ ?_ ?_) ?_ ?_ ?_ ?_))
    · decide
    · decide
    · decide
    · decide
    · intro i hi
      match i, hi with
      | 0, _ => decide
      | 1, _ => decide
    · intro i hi
      match i, hi with
      | 0, _ => exact .atom (.chr ⟨by decide, rfl, rfl⟩) (by decide) (by decide) (by decide) (by decide)
      | 1, _ => exact .str ⟨⟨by decide, rfl, by decide, rfl, rfl⟩, rfl⟩
    all_goals decide
example : Rep twice 116 twiceTree ∧ Rep twice 132 twiceTree ∧ twiceTree.size ≤ 20 :=
  ⟨twice_rep 116 (.inl rfl), twice_rep 132 (.inr rfl), by decide⟩
example : AtomAt twice 117 (.num 7) ∧ AtomAt twice 133 (.num 7) ∧ AtomAt twice c_nil (.obj c_nil) :=
  ⟨.num ⟨by decide, rfl, rfl⟩, .num ⟨by decide, rfl, rfl⟩, .obj (by decide) (by decide) (by decide) (by decide)⟩

/-! ## C11 -/

/-- The entry at `e` of an association list is a pair whose key denotes `p.2`. -/
def EntryKey {α : Type} (R : Int → α → Prop) (s : St) (e : Int) (p : Int × α) : Prop :=
  e = p.1 ∧ s.Valid e ∧ (s.cell e).tag = .pair ∧ R (s.cell e).car p.2

/-- The first entry with the key, or #f. -/
def firstEntry {α : Type} (P : α → Prop) [DecidablePred P] : List (Int × α) → Int
  | [] => c_f
  | e :: es => if P e.2 then e.1 else firstEntry P es

/-- The full statement for assq. -/
def AssqFirst : Prop := ∀ (s : St) (fuel : Nat) (x a : Int) (u : Atom) (es : List (Int × Atom)), AtomAt s x u →
  Fixed s → c_symbol_max ≤ s.free → ListOf s (EntryKey (AtomAt s) s) a es → es.length < fuel →
  assq s fuel x a = ok (firstEntry (· = u) es)

/-- The alist ((#\A . ())) at 116, and the number 65 at 119: assq finds #\A. -/
def mixed : St := sample [pair 117 c_nil, pair 118 c_nil, chr 65, num 65]

theorem sample_fixed (n : Int) (l : List Cell) : Fixed (sampleN n l) := by
  intro a _ h
  simp [sampleN, h, sampleFixed]

/-- assq of the number 65 in an alist whose only key is the character A answers that entry: the loop for numbers does not
look at the type of the keys. -/
theorem C11_assq_false : ¬ AssqFirst := by
  intro h
  have := h mixed 5 119 116 (.num 65) [(117, .chr 65)] (.num ⟨by decide, rfl, rfl⟩) (sample_fixed _ _) (by decide)
    (.cons (by decide) (by decide) rfl ⟨rfl, by decide, rfl, .chr ⟨by decide, rfl, rfl⟩⟩ .nil) (by decide)
  revert this
  decide

/-- The full statement for memq. -/
def MemqFirst : Prop := ∀ (s : St) (fuel : Nat) (x a : Int) (u : Atom) (ks : List Atom), AtomAt s x u →
  ListOf s (AtomAt s) a ks → ks.length < fuel → u ∉ ks → memq s fuel x a = ok c_f

/-- memq of the number 65 in a list that has only the character A. -/
theorem C11_memq_false : ¬ MemqFirst := by
  intro h
  have := h (sample [pair 118 c_nil, num 65, chr 65]) 5 117 116 (.num 65) [.chr 65] (.num ⟨by decide, rfl, rfl⟩)
    (.cons (by decide) (by decide) rfl (.chr ⟨by decide, rfl, rfl⟩) .nil) (by decide) (by decide)
  revert this
  decide

/-- The kind of an atom. -/
def kind : Atom → Nat
  | .num _ => 0
  | .chr _ => 1
  | .kw _ => 2
  | .obj _ => 3

theorem assqPtr_ok {s : St} {fuel : Nat} {x a : Int} {es : List (Int × Atom)} (hx : AtomAt s x (.obj x))
    (h : ListOf s (EntryKey (AtomAt s) s) a es) (hf : es.length < fuel) :
    assqPtr s x fuel a = ok (firstEntry (· = .obj x) es) := by
  induction h generalizing fuel with
  | nil =>
    obtain ⟨fuel, rfl⟩ : ∃ f, fuel = f + 1 := ⟨fuel - 1, by simp at hf; omega⟩
    simp [assqPtr, firstEntry]
  | @cons p e es hne hv ht he _ ih =>
    obtain ⟨fuel, rfl⟩ : ∃ f, fuel = f + 1 := ⟨fuel - 1, by simp at hf; omega⟩
    obtain ⟨he1, he2, he3, he4⟩ := he
    rw [he1] at he2 he4
    simp only [assqPtr, if_neg hne, St.rd_ok hv, ok_bind, he1, St.car_ok he2, firstEntry, ih (by simpa using hf)]
    by_cases hk : e.2 = .obj x
    · rw [if_pos hk, if_pos]
      rw [hk] at he4; cases he4; rfl
    · rw [if_neg hk, if_neg]
      intro hh
      rw [← hh] at he4
      exact hk (atomAt_inj he4 hx)

theorem assqVal_ok {s : St} {fuel : Nat} {a : Int} {v : Int} {u : Atom} {es : List (Int × Atom)}
    (hu : u = .num v ∨ u = .chr v) (h : ListOf s (EntryKey (AtomAt s) s) a es) (hk : ∀ e ∈ es, kind e.2 = kind u)
    (hf : es.length < fuel) : assqVal s v fuel a = ok (firstEntry (· = u) es) := by
  induction h generalizing fuel with
  | nil =>
    obtain ⟨fuel, rfl⟩ : ∃ f, fuel = f + 1 := ⟨fuel - 1, by simp at hf; omega⟩
    simp [assqVal, firstEntry]
  | @cons p e es hne hv ht he _ ih =>
    obtain ⟨fuel, rfl⟩ : ∃ f, fuel = f + 1 := ⟨fuel - 1, by simp at hf; omega⟩
    obtain ⟨he1, he2, he3, he4⟩ := he
    rw [he1] at he2 he4
    simp only [assqVal, if_neg hne, St.rd_ok hv, ok_bind, he1, St.car_ok he2, firstEntry,
      ih (fun e he => hk e (List.mem_cons_of_mem _ he)) (by simpa using hf), St.cdr_ok he4.valid]
    have hk0 := hk e (List.mem_cons_self ..)
    have : (v = (s.cell (s.cell e.1).car).cdr) ↔ e.2 = u := by
      rcases hu with rfl | rfl
      · generalize e.2 = k at he4 hk0 ⊢
        cases he4 with
        | num h => rw [h.value]; simp [eq_comm]
        | chr h => simp [kind] at hk0
        | kw h => simp [kind] at hk0
        | obj h => simp [kind] at hk0
      · generalize e.2 = k at he4 hk0 ⊢
        cases he4 with
        | chr h => rw [h.value]; simp [eq_comm]
        | num h => simp [kind] at hk0
        | kw h => simp [kind] at hk0
        | obj h => simp [kind] at hk0
    by_cases hh : e.2 = u
    · rw [if_pos hh, if_pos (this.2 hh)]
    · rw [if_neg hh, if_neg (fun h => hh (this.1 h))]

theorem assqKey_ok {s : St} {fuel : Nat} {a x : Int} {bs : List Byte} {es : List (Int × Atom)}
    (hx : HasText s x bs) (hxt : (s.cell x).tag = .keyword) (h : ListOf s (EntryKey (AtomAt s) s) a es)
    (hk : ∀ e ∈ es, kind e.2 = 2)
    (hf : es.length < fuel) : assqKey s x fuel a = ok (firstEntry (· = .kw bs) es) := by
  induction h generalizing fuel with
  | nil =>
    obtain ⟨fuel, rfl⟩ : ∃ f, fuel = f + 1 := ⟨fuel - 1, by simp at hf; omega⟩
    simp [assqKey, firstEntry]
  | @cons p e es hne hv ht he _ ih =>
    obtain ⟨fuel, rfl⟩ : ∃ f, fuel = f + 1 := ⟨fuel - 1, by simp at hf; omega⟩
    obtain ⟨he1, he2, he3, he4⟩ := he
    rw [he1] at he2 he4
    simp only [assqKey, if_neg hne, St.rd_ok hv, ok_bind, he1, St.car_ok he2, firstEntry,
      ih (fun e he => hk e (List.mem_cons_of_mem _ he)) (by simpa using hf)]
    have hk0 := hk e (List.mem_cons_self ..)
    generalize e.2 = k at he4 hk0 ⊢
    cases he4 with
    | kw h ht' =>
      rw [stringEqual_ok hx h (.inr (.inl hxt))]
      simp only [ok_bind, Atom.kw.injEq, eq_comm (a := bs)]
      split <;> simp [c_t, c_f]
    | num h => simp [kind] at hk0
    | chr h => simp [kind] at hk0
    | obj h => simp [kind] at hk0

/-- assq answers the first entry with an eq? key, or #f, when the key searched for is not a number, character or keyword,
or all keys of the list are of its kind.  Missing: lists with keys of mixed kinds, where it is false. -/
theorem C11_assq_partial {s : St} {fuel : Nat} {x a : Int} {u : Atom} {es : List (Int × Atom)} (hx : AtomAt s x u)
    (hfix : Fixed s) (hb : c_symbol_max ≤ s.free) (h : ListOf s (EntryKey (AtomAt s) s) a es) (hf : es.length < fuel)
    (hk : u = .obj x ∨ ∀ e ∈ es, kind e.2 = kind u) : assq s fuel x a = ok (firstEntry (· = u) es) := by
  cases h with
  | nil =>
    have hv : s.Valid c_nil := ⟨by decide, by have := hb; simp [c_nil, c_symbol_max] at *; omega⟩
    have ht := hfix c_nil (by decide) (by decide)
    simp only [assq, St.rd_ok hv, ok_bind, ht]
    simp [firstEntry, c_nil]
  | @cons _ e es hne hv ht he h =>
    have hl : ListOf s (EntryKey (AtomAt s) s) a (e :: es) := .cons hne hv ht he h
    simp only [assq, St.rd_ok hv, St.rd_ok hx.valid, ok_bind, ht]
    simp only [ne_eq, not_true, if_false]
    cases hx with
    | num hn =>
      have : ∀ e' ∈ e :: es, kind e'.2 = kind (.num _) := hk.resolve_left nofun
      simp only [hn.tag, hn.value, reduceCtorEq, or_self, or_true, if_true, if_false]
      exact assqVal_ok (.inl rfl) hl this hf
    | chr hn =>
      have : ∀ e' ∈ e :: es, kind e'.2 = kind (.chr _) := hk.resolve_left nofun
      simp only [hn.tag, hn.value, reduceCtorEq, or_self, true_or, if_true, if_false]
      exact assqVal_ok (.inr rfl) hl this hf
    | kw hn ht' =>
      have : ∀ e' ∈ e :: es, kind e'.2 = kind (.kw _) := hk.resolve_left nofun
      simp only [ht', reduceCtorEq, or_self, if_true, if_false]
      exact assqKey_ok hn ht' hl this hf
    | obj g1 g2 g3 g4 =>
      simp only [g2, g3, g4, or_self, if_false]
      have := assqPtr_ok (.obj g1 g2 g3 g4) hl hf
      split <;> exact this

/-- memq: the list starts with `pre` elements that are not eq? to `u`, and the result is the rest of the list, which starts
with an element eq? to `u`; or there is none and the result is #f. -/
def MemqResult (s : St) (a : Int) (u : Atom) (ks : List Atom) (r : Res Int) : Prop :=
  (u ∉ ks ∧ r = ok c_f) ∨
  ∃ pre post xs q, ks = pre ++ u :: post ∧ u ∉ pre ∧ r = ok q ∧ Seg s a xs q ∧ xs.length = pre.length ∧
    ListOf s (AtomAt s) q (u :: post)

theorem MemqResult.skip {s : St} {a : Int} {u k : Atom} {ks : List Atom} {r : Res Int} (hne : a ≠ c_nil) (hv : s.Valid a)
    (ht : (s.cell a).tag = .pair) (hk : k ≠ u) (h : MemqResult s (s.cell a).cdr u ks r) :
    MemqResult s a u (k :: ks) r := by
  rcases h with ⟨h1, h2⟩ | ⟨pre, post, xs, q, h1, h2, h3, h4, h5, h6⟩
  · exact .inl ⟨by simp [h1, Ne.symm hk], h2⟩
  · exact .inr ⟨k :: pre, post, _, q, by simp [h1], by simp [h2, Ne.symm hk], h3, .cons hne hv ht h4, by simp [h5], h6⟩

theorem memqPtr_ok {s : St} {fuel : Nat} {x a : Int} {ks : List Atom} (hx : AtomAt s x (.obj x))
    (h : ListOf s (AtomAt s) a ks) (hf : ks.length < fuel) : MemqResult s a (.obj x) ks (memqPtr s x fuel a) := by
  induction h generalizing fuel with
  | nil =>
    obtain ⟨fuel, rfl⟩ : ∃ f, fuel = f + 1 := ⟨fuel - 1, by simp at hf; omega⟩
    exact .inl ⟨by simp, by simp [memqPtr]⟩
  | @cons p k ks hne hv ht hk h ih =>
    obtain ⟨fuel, rfl⟩ : ∃ f, fuel = f + 1 := ⟨fuel - 1, by simp at hf; omega⟩
    simp only [memqPtr, if_neg hne, St.rd_ok hv, ok_bind]
    by_cases hxk : x = (s.cell p).car
    · have := atomAt_inj (hxk ▸ hk) hx
      rw [if_pos hxk]
      subst this
      exact .inr ⟨[], ks, [], p, rfl, by simp, rfl, .nil p, rfl, .cons hne hv ht hk h⟩
    · rw [if_neg hxk]
      refine (ih (by simpa using hf)).skip hne hv ht (fun e => ?_)
      subst e
      generalize (s.cell p).car = q at hk hxk
      cases hk
      exact hxk rfl

theorem memqVal_ok {s : St} {fuel : Nat} {v a : Int} {u : Atom} {ks : List Atom} (hu : u = .num v ∨ u = .chr v)
    (h : ListOf s (AtomAt s) a ks) (hf : ks.length < fuel) (hk : ∀ k ∈ ks, kind k = kind u) :
    MemqResult s a u ks (memqVal s v fuel a) := by
  induction h generalizing fuel with
  | nil =>
    obtain ⟨fuel, rfl⟩ : ∃ f, fuel = f + 1 := ⟨fuel - 1, by simp at hf; omega⟩
    exact .inl ⟨by simp, by simp [memqVal]⟩
  | @cons p k ks hne hv ht hk1 h ih =>
    obtain ⟨fuel, rfl⟩ : ∃ f, fuel = f + 1 := ⟨fuel - 1, by simp at hf; omega⟩
    simp only [memqVal, if_neg hne, St.rd_ok hv, ok_bind, St.cdr_ok hk1.valid]
    have hk0 := hk k (List.mem_cons_self ..)
    have hiff : (v = (s.cell (s.cell p).car).cdr) ↔ k = u := by
      generalize (s.cell p).car = q at hk1 ⊢
      rcases hu with rfl | rfl
      · cases hk1 with
        | num h => rw [h.value]; simp [eq_comm]
        | chr h => simp [kind] at hk0
        | kw h => simp [kind] at hk0
        | obj h => simp [kind] at hk0
      · cases hk1 with
        | chr h => rw [h.value]; simp [eq_comm]
        | num h => simp [kind] at hk0
        | kw h => simp [kind] at hk0
        | obj h => simp [kind] at hk0
    by_cases hku : k = u
    · rw [if_pos (hiff.2 hku)]
      subst hku
      exact .inr ⟨[], ks, [], p, rfl, by simp, rfl, .nil p, rfl, .cons hne hv ht hk1 h⟩
    · rw [if_neg (fun h => hku (hiff.1 h))]
      exact (ih (by simpa using hf) (fun k' h' => hk k' (List.mem_cons_of_mem _ h'))).skip hne hv ht hku

theorem memqKey_ok {s : St} {fuel : Nat} {x a : Int} {bs : List Byte} {ks : List Atom} (hx : HasText s x bs)
    (hxt : (s.cell x).tag = .keyword) (h : ListOf s (AtomAt s) a ks) (hf : ks.length < fuel) :
    MemqResult s a (.kw bs) ks (memqKey s x fuel a) := by
  induction h generalizing fuel with
  | nil =>
    obtain ⟨fuel, rfl⟩ : ∃ f, fuel = f + 1 := ⟨fuel - 1, by simp at hf; omega⟩
    exact .inl ⟨by simp, by simp [memqKey]⟩
  | @cons p k ks hne hv ht hk1 h ih =>
    obtain ⟨fuel, rfl⟩ : ∃ f, fuel = f + 1 := ⟨fuel - 1, by simp at hf; omega⟩
    simp only [memqKey, if_neg hne, St.rd_ok hv, ok_bind, St.tag_ok hk1.valid]
    have hrec := ih (fuel := fuel) (by simpa using hf)
    have hhere : k = .kw bs → MemqResult s p (.kw bs) (k :: ks) (ok p) := fun hk => by
      subst hk
      exact .inr ⟨[], ks, [], p, rfl, by simp, rfl, .nil p, rfl, .cons hne hv ht hk1 h⟩
    cases hk1' : hk1 with
    | @kw cs h' ht' =>
      rw [if_pos ht', stringEqual_ok hx h' (.inr (.inl hxt))]
      by_cases he : bs = cs
      · rw [if_pos he, ok_bind, if_pos rfl]
        exact hhere (by rw [he])
      · rw [if_neg he, ok_bind, if_neg (by decide)]
        exact hrec.skip hne hv ht (by simpa [eq_comm] using he)
    | num h' => rw [if_neg (by rw [h'.tag]; decide)]; exact hrec.skip hne hv ht (by simp)
    | chr h' => rw [if_neg (by rw [h'.tag]; decide)]; exact hrec.skip hne hv ht (by simp)
    | obj _ _ _ h' => rw [if_neg h']; exact hrec.skip hne hv ht (by simp)

/-- memq answers the rest of the list from the first eq? element on, or #f, when the argument is not a number or a
character, or all elements of the list are of its kind.  Missing: numbers and characters in lists with elements of another
kind, where it is false. -/
theorem C11_memq_partial {s : St} {fuel : Nat} {x a : Int} {u : Atom} {ks : List Atom} (hx : AtomAt s x u)
    (h : ListOf s (AtomAt s) a ks) (hf : ks.length < fuel)
    (hk : u = .obj x ∨ kind u = 2 ∨ ∀ k ∈ ks, kind k = kind u) : MemqResult s a u ks (memq s fuel x a) := by
  simp only [memq, St.rd_ok hx.valid, ok_bind]
  cases hx with
  | num hn =>
    simp only [hn.tag, hn.value, or_true, if_true]
    exact memqVal_ok (.inl rfl) h hf ((hk.resolve_left nofun).resolve_left nofun)
  | chr hn =>
    simp only [hn.tag, hn.value, true_or, if_true]
    exact memqVal_ok (.inr rfl) h hf ((hk.resolve_left nofun).resolve_left nofun)
  | kw hn ht =>
    simp only [ht, reduceCtorEq, or_self, if_false, if_true]
    exact memqKey_ok hn ht h hf
  | obj g1 g2 g3 g4 =>
    simp only [g2, g3, g4, or_self, if_false]
    exact memqPtr_ok (.obj g1 g2 g3 g4) h hf

/-- The first entry whose key denotes the tree, or #f. -/
def FirstTree (t : Tree) (es : List (Int × Tree)) (r : Res Int) : Prop :=
  (r = ok c_f ∧ ∀ e ∈ es, e.2 ≠ t) ∨ ∃ pre e post, es = pre ++ e :: post ∧ e.2 = t ∧ (∀ e' ∈ pre, e'.2 ≠ t) ∧ r = ok e.1

theorem FirstTree.skip {t : Tree} {e : Int × Tree} {es : List (Int × Tree)} {r : Res Int} (h : e.2 ≠ t)
    (hr : FirstTree t es r) : FirstTree t (e :: es) r := by
  rcases hr with ⟨h1, h2⟩ | ⟨pre, e', post, h1, h2, h3, h4⟩
  · exact .inl ⟨h1, fun e' he' => (List.mem_cons.1 he').elim (fun hh => hh ▸ h) (h2 e')⟩
  · exact .inr ⟨e :: pre, e', post, by simp [h1], h2, fun e' he' => (List.mem_cons.1 he').elim (fun hh => hh ▸ h) (h3 e'), h4⟩

theorem assocLoop_ok {s : St} {fuel deep : Nat} {x a : Int} {t : Tree} {es : List (Int × Tree)} (hx : Rep s x t)
    (h : ListOf s (EntryKey (Rep s) s) a es) (hf : es.length < fuel) (hd : t.size ≤ deep) :
    FirstTree t es (assocLoop s x deep fuel a) := by
  induction h generalizing fuel with
  | nil =>
    obtain ⟨fuel, rfl⟩ : ∃ f, fuel = f + 1 := ⟨fuel - 1, by simp at hf; omega⟩
    exact .inl ⟨by simp [assocLoop], by simp⟩
  | @cons p e es hne hv ht he _ ih =>
    obtain ⟨fuel, rfl⟩ : ∃ f, fuel = f + 1 := ⟨fuel - 1, by simp at hf; omega⟩
    obtain ⟨he1, he2, he3, he4⟩ := he
    simp only [assocLoop, if_neg hne, St.rd_ok hv, St.car_ok he2, ok_bind]
    obtain ⟨c1, c2⟩ := equal2_ok hx deep _ _ he4 hd
    by_cases hte : t = e.2
    · rw [c1 hte, ok_bind, if_pos rfl, he1]
      exact .inr ⟨[], e, es, rfl, hte.symm, by simp, rfl⟩
    · rw [c2 hte, ok_bind, if_neg (by decide)]
      exact (ih (by simpa using hf)).skip (Ne.symm hte)

theorem assocString_ok {s : St} {fuel : Nat} {x a : Int} {bs : List Byte} {es : List (Int × Tree)} (hx : IsString s x bs)
    (h : ListOf s (EntryKey (Rep s) s) a es) (hf : es.length < fuel) : FirstTree (.str bs) es (assocString s x fuel a) := by
  induction h generalizing fuel with
  | nil =>
    obtain ⟨fuel, rfl⟩ : ∃ f, fuel = f + 1 := ⟨fuel - 1, by simp at hf; omega⟩
    exact .inl ⟨by simp [assocString], by simp⟩
  | @cons p e es hne hv ht he _ ih =>
    obtain ⟨fuel, rfl⟩ : ∃ f, fuel = f + 1 := ⟨fuel - 1, by simp at hf; omega⟩
    obtain ⟨he1, he2, he3, he4⟩ := he
    simp only [assocString, if_neg hne, St.rd_ok hv, St.car_ok he2, ok_bind, St.tag_ok he4.valid]
    have hrec := ih (fuel := fuel) (by simpa using hf)
    obtain ⟨ea, k⟩ := e
    simp only at he1 he4
    cases he4 with
    | @str _ cs h' =>
      rw [if_pos h'.tag, stringEqual_ok hx.toHasText h'.toHasText (.inl ⟨hx.tag, h'.tag⟩)]
      by_cases heq : bs = cs
      · rw [if_pos heq, ok_bind, if_pos rfl, he1]
        exact .inr ⟨[], _, es, rfl, by simp [heq], by simp, rfl⟩
      · rw [if_neg heq, ok_bind, if_neg (by decide)]
        exact hrec.skip (by simpa [eq_comm] using heq)
    | atom _ _ h' => rw [if_neg h']; exact hrec.skip nofun
    | pair _ h' => rw [if_neg (by rw [h']; decide)]; exact hrec.skip nofun
    | vec _ h' => rw [if_neg (by rw [h']; decide)]; exact hrec.skip nofun

/-- assoc answers the first entry whose key is equal? to the argument, or #f. -/
theorem C11_assoc {s : St} {fuel : Nat} {x a : Int} {t : Tree} {es : List (Int × Tree)} (hx : Rep s x t)
    (h : ListOf s (EntryKey (Rep s) s) a es) (hf : es.length < fuel ∧ t.size ≤ fuel) :
    FirstTree t es (assoc s fuel x a) := by
  simp only [assoc, St.tag_ok hx.valid, ok_bind]
  cases hx with
  | str hx => rw [if_pos hx.tag]; exact assocString_ok hx h hf.1
  | atom g g1 g2 g3 g4 => rw [if_neg g2]; exact assocLoop_ok (.atom g g1 g2 g3 g4) h hf.1 hf.2
  | pair g1 g2 g3 g4 => rw [if_neg (by rw [g2]; decide)]; exact assocLoop_ok (.pair g1 g2 g3 g4) h hf.1 hf.2
  | vec g1 g2 g3 g4 g5 => rw [if_neg (by rw [g2]; decide)]; exact assocLoop_ok (.vec g1 g2 g3 g4 g5) h hf.1 hf.2

/-- The alist ((3 . ()) (5 . ()) (5 . #t)) at 116. -/
def alist : St :=
  sample [pair 119 117, pair 120 118, pair 121 c_nil, pair 122 c_nil, pair 123 c_nil, pair 124 c_t, num 3, num 5, num 5]
theorem alist_ok : ListOf alist (EntryKey (AtomAt alist) alist) 116 [(119, .num 3), (120, .num 5), (121, .num 5)] :=
  .cons (by decide) (by decide) rfl ⟨rfl, by decide, rfl, .num ⟨by decide, rfl, rfl⟩⟩
    (.cons (by decide) (by decide) rfl ⟨rfl, by decide, rfl, .num ⟨by decide, rfl, rfl⟩⟩
      (.cons (by decide) (by decide) rfl ⟨rfl, by decide, rfl, .num ⟨by decide, rfl, rfl⟩⟩ .nil))
example : AtomAt alist 124 (.num 5) ∧ firstEntry (· = Atom.num 5) [(119, .num 3), (120, .num 5), (121, .num 5)] = 120 ∧
    firstEntry (· = Atom.num 4) [(119, .num 3), (120, .num 5), (121, .num 5)] = c_f :=
  ⟨.num ⟨by decide, rfl, rfl⟩, by decide, by decide⟩
example : ListOf alist (AtomAt alist) 118 [.obj 121] ∧ AtomAt alist 121 (.obj 121) :=
  ⟨.cons (by decide) (by decide) rfl (.obj (by decide) (by decide) (by decide) (by decide)) .nil,
    .obj (by decide) (by decide) (by decide) (by decide)⟩
theorem num_rep {s : St} {p n : Int} (h : IsNum s p n) : Rep s p (.atom (.num n)) :=
  .atom (.num h) (by rw [h.tag]; decide) (by rw [h.tag]; decide) (by rw [h.tag]; decide) (by rw [h.tag]; decide)
example : ListOf alist (EntryKey (Rep alist) alist) 117 [(120, .atom (.num 5)), (121, .atom (.num 5))] ∧
    Rep alist 124 (.atom (.num 5)) :=
  ⟨.cons (by decide) (by decide) rfl ⟨rfl, by decide, rfl, num_rep ⟨by decide, rfl, rfl⟩⟩
    (.cons (by decide) (by decide) rfl ⟨rfl, by decide, rfl, num_rep ⟨by decide, rfl, rfl⟩⟩ .nil),
    num_rep ⟨by decide, rfl, rfl⟩⟩

end Mes.Props
