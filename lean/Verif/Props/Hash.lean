import Verif.Proof.Start
import Verif.Spec.Sample
/-
Properties C13, C14: hash tables and the symbol table (/repo/src/hash.c, /repo/src/string.c, /repo/src/symbol.c).

`IsTable K s t n H` (Spec/Table.lean): the hash table at `t` with `n` buckets holds the stores `H`, the latest first;
`lookup k H`: the value stored last for `k`.
-/
namespace Mes.Props
open Res Spec

/-! ## C13 -/

/-- The states a program can reach after making a hash table at `t`, by stores and lookups in it, mixed with any
allocation and any changes outside the cells the table is made of.  The list holds all stores, the latest first. -/
inductive HashRun {α : Type} (K : Keys α) (ref : St → Nat → Int → Int → Int → Res (Int × St))
    (set : St → Int → Int → Int → Res (Int × St)) (n : Nat) (t : Int) : St → List (α × Int) → Prop
  | make {s s' : St} {fuel : Nat} {m : Int} (hfix : Fixed s) (hr : Room s (2 * n + 32))
      (hm : n = if m = 0 then 100 else m) (hn : 0 < n) (hs : n ≤ 2147483647) (hf : 4 ≤ fuel)
      (h : makeHashTable s fuel m = ok (t, s')) : HashRun K ref set n t s' []
  | set {s s' : St} {H : List (α × Int)} {key v r : Int} {k : α} (h : HashRun K ref set n t s H) (hk : K.at' s key k)
      (h0 : 0 ≤ hashSum (K.name k)) (hr : Room s 4) (hs : set s t key v = ok (r, s')) :
      HashRun K ref set n t s' ((k, v) :: H)
  | ref {s s' : St} {H : List (α × Int)} {fuel : Nat} {key dflt r : Int} {k : α} (h : HashRun K ref set n t s H)
      (hk : K.at' s key k) (h0 : 0 ≤ hashSum (K.name k)) (hd : s.Valid dflt ∧ (s.cell dflt).tag ≠ .pair)
      (hf : H.length < fuel) (hr : Room s 1) (hs : ref s fuel t key dflt = ok (r, s')) : HashRun K ref set n t s' H
  | other {s s' : St} {H : List (α × Int)} {P : Int → Prop} (h : HashRun K ref set n t s H) (hf : Frame P s s')
      (hp : ∀ a, Part s t n a → ¬ P a) (hc : ¬ P c_f ∧ ¬ P c_unspecified) : HashRun K ref set n t s' H

/-- Histories of hash-set! and hash-ref, with string keys. -/
abbrev StringRun := HashRun stringKeys hashRef hashSet
/-- Histories of hashq-set! and hashq-ref, with symbol keys. -/
abbrev SymbolRun (name : Int → List Byte) := HashRun (symbolKeys name) hashqRef hashqSet

theorem IsTable.other {α : Type} {K : Keys α} {s s' : St} {t : Int} {n : Nat} {H : List (α × Int)} {P : Int → Prop}
    (hK : KeysOk K) (h : IsTable K s t n H) (hf : Frame P s s') (hp : ∀ a, Part s t n a → ¬ P a)
    (hc : ¬ P c_f ∧ ¬ P c_unspecified) : IsTable K s' t n H :=
  h.frame hK hf hp ⟨by rw [hf.same _ h.fvalid.1.2 hc.1]; exact h.ftag.1, by rw [hf.same _ h.fvalid.2.2 hc.2]; exact h.ftag.2⟩

theorem stringRun_table {s : St} {t : Int} {n : Nat} {H : List (List Byte × Int)} (h : StringRun n t s H) :
    IsTable stringKeys s t n H := by
  induction h with
  | make hfix hr hm hn hs hf h =>
    obtain ⟨t', s'', g1, g2, -⟩ := makeHashTable_ok stringKeys_ok hm hn hs hr hfix hf
    rw [h] at g1; cases g1
    exact g2
  | @set s s' H key v r k _ hk h0 hr hs ih =>
    obtain ⟨s'', g1, g2, -⟩ := hashSet_ok (v := v) ih hk h0 hr
    rw [hs] at g1; cases g1
    exact g2
  | ref _ hk h0 hd hf hr hs ih =>
    have g := hashRef_ok ih hk h0 hd.1 hf hr
    rw [hs] at g; cases g
    exact ih.ext stringKeys_ok (push_ext ..)
  | other _ hf hp hc ih => exact IsTable.other stringKeys_ok ih hf hp hc

theorem symbolRun_table {name : Int → List Byte} {s : St} {t : Int} {n : Nat} {H : List (Int × Int)}
    (h : SymbolRun name n t s H) : IsTable (symbolKeys name) s t n H := by
  induction h with
  | make hfix hr hm hn hs hf h =>
    obtain ⟨t', s'', g1, g2, -⟩ := makeHashTable_ok (symbolKeys_ok name) hm hn hs hr hfix hf
    rw [h] at g1; cases g1
    exact g2
  | @set s s' H key v r k _ hk h0 hr hs ih =>
    obtain ⟨rfl, hk1, hk2⟩ := hk
    obtain ⟨s'', g1, g2, -⟩ := hashqSet_ok (v := v) ih hk1 hk2 h0 hr
    rw [hs] at g1; cases g1
    exact g2
  | ref _ hk h0 hd hf hr hs ih =>
    obtain ⟨rfl, hk1, hk2⟩ := hk
    have g := hashqRef_ok ih hk1 hk2 h0 hd.1 hd.2 hf hr
    rw [hs] at g; cases g
    exact ih.ext (symbolKeys_ok name) (push_ext ..)
  | other _ hf hp hc ih => exact IsTable.other (symbolKeys_ok name) ih hf hp hc

/-- After any history, hash-ref answers the value stored last for an equal string, or #f when there is none.  Missing:
defaults other than #f, and keys whose first characters are not ASCII; both are false. -/
theorem C13_hash_ref_partial {s : St} {t key dflt : Int} {n fuel : Nat} {H : List (List Byte × Int)} {bs : List Byte}
    (h : StringRun n t s H) (hk : IsString s key bs) (h0 : 0 ≤ hashSum bs)
    (hd : s.Valid dflt ∧ (s.cell dflt).tag ≠ .pair) (hf : H.length < fuel) (hr : Room s 1) :
    ∃ s', hashRef s fuel t key dflt = ok ((lookup bs H).getD c_f, s') ∧ StringRun n t s' H ∧ Ext s s' := by
  have g := hashRef_ok (stringRun_table h) hk h0 hd.1 hf hr
  have hres : refResult s bs H (H.filter (fun e => slot n e.1 = slot n bs) = []) dflt = (lookup bs H).getD c_f := by
    unfold refResult
    cases lookup bs H <;> simp [hd.2]
  rw [hres] at g
  exact ⟨_, g, .ref h hk h0 hd hf hr g, push_ext ..⟩

/-- hash-set! always succeeds when there is room, answers the value, and changes one cell of the table only. -/
theorem C13_hash_set_partial {s : St} {t key v : Int} {n : Nat} {H : List (List Byte × Int)} {bs : List Byte}
    (h : StringRun n t s H) (hk : IsString s key bs) (h0 : 0 ≤ hashSum bs) (hr : Room s 4) :
    ∃ s', hashSet s t key v = ok (v, s') ∧ StringRun n t s' ((bs, v) :: H) ∧ ∃ c, Frame (· = c) s s' ∧ Part s t n c := by
  have ht := stringRun_table h
  obtain ⟨s', g1, g2, g3, -⟩ := hashSet_ok (v := v) ht hk h0 hr
  exact ⟨s', g1, .set h hk h0 hr g1, _, g3, .inr (.inr (.inr (.inr ⟨slot n bs, slot_lt _ ht.pos, .inl rfl⟩)))⟩

/-- After any history, hashq-ref answers the value stored last for the symbol, or #f when there is none. -/
theorem C13_hashq_ref_partial {name : Int → List Byte} {s : St} {t key dflt : Int} {n fuel : Nat} {H : List (Int × Int)}
    (h : SymbolRun name n t s H) (hk : HasText s key (name key))
    (hkt : (s.cell key).tag = .symbol ∨ (s.cell key).tag = .special) (h0 : 0 ≤ hashSum (name key))
    (hd : s.Valid dflt ∧ (s.cell dflt).tag ≠ .pair) (hf : H.length < fuel) (hr : Room s 1) :
    ∃ s', hashqRef s fuel t key dflt = ok ((lookup key H).getD c_f, s') ∧ SymbolRun name n t s' H ∧ Ext s s' := by
  have g := hashqRef_ok (symbolRun_table h) hk hkt h0 hd.1 hd.2 hf hr
  exact ⟨_, g, .ref h ⟨rfl, hk, hkt⟩ h0 hd hf hr g, push_ext ..⟩

/-- hashq-set! always succeeds when there is room, answers the value, and changes one cell of the table only. -/
theorem C13_hashq_set_partial {name : Int → List Byte} {s : St} {t key v : Int} {n : Nat} {H : List (Int × Int)}
    (h : SymbolRun name n t s H) (hk : HasText s key (name key))
    (hkt : (s.cell key).tag = .symbol ∨ (s.cell key).tag = .special) (h0 : 0 ≤ hashSum (name key)) (hr : Room s 4) :
    ∃ s', hashqSet s t key v = ok (v, s') ∧ SymbolRun name n t s' ((key, v) :: H) ∧
      ∃ c, Frame (· = c) s s' ∧ Part s t n c := by
  have ht := symbolRun_table h
  obtain ⟨s', g1, g2, g3, -⟩ := hashqSet_ok (v := v) ht hk hkt h0 hr
  exact ⟨s', g1, .set h ⟨rfl, hk, hkt⟩ h0 hr g1, _, g3,
    .inr (.inr (.inr (.inr ⟨slot n (name key), slot_lt _ ht.pos, .inl rfl⟩)))⟩

/-- make-hash-table makes an empty table. -/
theorem C13_make {s : St} {fuel n : Nat} {m : Int} (hfix : Fixed s) (hr : Room s (2 * n + 32))
    (hm : n = if m = 0 then 100 else m) (hn : 0 < n) (hs : n ≤ 2147483647) (hf : 4 ≤ fuel) :
    ∃ t s', makeHashTable s fuel m = ok (t, s') ∧ StringRun n t s' [] ∧ Ext s s' := by
  obtain ⟨t', s'', g1, g2, g3, -⟩ := makeHashTable_ok stringKeys_ok hm hn hs hr hfix hf
  exact ⟨t', s'', g1, .make hfix hr hm hn hs hf g1, g3⟩

/-! A table with two buckets at 116, a string "a" at 125 and a string "\xff" at 130; a pair (#t) at 135. -/
def tableState : St :=
  let ref (a : Int) : Cell := { tag := .ref, car := a, cdr := 0 }
  sample [{ tag := .struct, car := 5, cdr := 117 }, ref c_symbol_record_type, ref c_unspecified, ref c_symbol_hashq_table,
    num 2, ref 122, { tag := .vector, car := 2, cdr := 123 }, ref c_unspecified, ref c_unspecified,
    { tag := .string, car := 1, cdr := 126 }, { tag := .bytes, car := 2, cdr := 0, bytes := [97, 0] },
    default, default, default,
    { tag := .string, car := 1, cdr := 131 }, { tag := .bytes, car := 2, cdr := 0, bytes := [255, 0] },
    default, default, default, pair c_t c_nil]

theorem tableState_ok {α : Type} (K : Keys α) : IsTable K tableState 116 2 [] := by
  refine ⟨by decide, rfl, rfl, ⟨by decide, rfl, rfl⟩, by decide, rfl, by decide, rfl, rfl, by decide, by decide,
    ?_, ?_, ?_, ?_, by simp, ⟨by decide, by decide⟩, ⟨rfl, rfl⟩⟩ <;> intro i hi <;> (have : i = 0 ∨ i = 1 := by omega)
  · rcases this with rfl | rfl <;> decide
  · rcases this with rfl | rfl <;> decide
  · rcases this with rfl | rfl <;> rfl
  · rcases this with rfl | rfl <;> simp [Bucket] <;> rfl

/-- The state the table was made in, and the table it gives. -/
example : ∃ t s', makeHashTable (sample []) 4 7 = ok (t, s') ∧ StringRun 7 t s' [] := by
  obtain ⟨t, s', h, h', -⟩ := C13_make (s := sample []) (fuel := 4) (n := 7) (m := 7)
    (by intro a _ h; simp [sample, sampleN, h, sampleFixed]) ⟨by decide, by decide⟩ rfl (by decide) (by decide) (by decide)
  exact ⟨t, s', h, h'⟩
example : IsString tableState 125 [97] ∧ 0 ≤ hashSum [97] ∧ Room tableState 4 ∧ tableState.Valid c_f ∧
    (tableState.cell c_f).tag ≠ .pair :=
  ⟨⟨⟨by decide, rfl, by decide, rfl, rfl⟩, rfl⟩, by decide, ⟨by decide, by decide⟩, by decide, by decide⟩
example : lookup [97] [([98], 7), ([97], 8), ([97], 9)] = some 8 := rfl

/-- hash-ref of a key that was never stored answers the default. -/
def DefaultUsed : Prop := ∀ (s : St) (fuel n : Nat) (t key dflt : Int) (bs : List Byte) (H : List (List Byte × Int)),
  IsTable stringKeys s t n H → IsString s key bs → 0 ≤ hashSum bs → s.Valid dflt → H.length < fuel → Room s 1 →
  lookup bs H = none → ∃ s', hashRef s fuel t key dflt = ok (dflt, s')

/-- (hash-ref table "a" #t) of an empty table answers #f. -/
theorem C13_default_false : ¬ DefaultUsed := by
  intro h
  have hk : IsString tableState 125 [97] := ⟨⟨by decide, rfl, by decide, rfl, rfl⟩, rfl⟩
  obtain ⟨s', hs'⟩ := h tableState 5 2 116 125 c_t [97] [] (tableState_ok _) hk (by decide) (by decide) (by decide)
    ⟨by decide, by decide⟩ rfl
  have g := hashRef_ok (fuel := 5) (dflt := c_t) (tableState_ok stringKeys) hk (by decide) (by decide) (by decide)
    ⟨by decide, by decide⟩
  rw [hs'] at g
  have : c_t = refResult tableState [97] [] ([].filter (fun e : List Byte × Int => slot 2 e.1 = slot 2 [97]) = []) c_t := by
    injection g with g; exact (Prod.mk.inj g).1
  revert this
  decide

/-- The same with the default as a list of the optional arguments. -/
def DefaultListUsed : Prop := ∀ (s : St) (fuel n : Nat) (t key dflt : Int) (bs : List Byte) (H : List (List Byte × Int)),
  IsTable stringKeys s t n H → IsString s key bs → 0 ≤ hashSum bs → s.Valid dflt → (s.cell dflt).tag = .pair →
  H.length < fuel → Room s 5 → lookup bs H = none → ∃ s', hashRef s fuel t key dflt = ok ((s.cell dflt).car, s')

/-- With another key in the same bucket the default is not used either: "cc" and "aa" are in the same of two buckets. -/
theorem C13_default_list_false : ¬ DefaultListUsed := by
  intro h
  have hk : IsString tableState 125 [97] := ⟨⟨by decide, rfl, by decide, rfl, rfl⟩, rfl⟩
  obtain ⟨s1, a1, a2, a3, a4⟩ := hashSet_ok (v := c_t) (tableState_ok stringKeys) hk (by decide) ⟨by decide, by decide⟩
  have hr0 : Room tableState 20 := ⟨by decide, by decide⟩
  have hr1 : Room s1 16 := hr0.step a3 (by omega)
  obtain ⟨s2, b1, b2, b3, b4⟩ := makeString_ok (s := s1) (bs := [99]) (by rw [a3.maxString]; decide)
    (hr1.mono (by decide))
  have hr2 : Room s2 5 := hr1.step b3 (by simp only [stringCells] at b4; simp at b4; omega)
  have t2 := a2.ext stringKeys_ok b3
  have hcell : bucketCell tableState 116 2 [97] = 124 := by decide
  have h135 : s2.cell 135 = pair c_t c_nil := by
    rw [b3.same 135 (Int.lt_of_lt_of_le (by decide) a3.le) id, a3.same 135 (by decide) (by decide)]; rfl
  have v135 : s2.Valid 135 := b3.valid (a3.valid (by decide))
  have hb1 : lookup [99] [(([97] : List Byte), c_t)] = none := by decide
  obtain ⟨s', hs'⟩ := h s2 5 2 116 s1.free 135 [99] _ t2 b2 (by decide) v135 (by rw [h135]; rfl) (by decide) hr2 hb1
  have g := hashRef_ok (fuel := 5) (dflt := 135) t2 b2 (by decide) v135 (by decide) (hr2.mono (by decide))
  rw [hs'] at g
  have : (s2.cell 135).car = refResult s2 [99] [([97], c_t)]
      ([(([97] : List Byte), c_t)].filter (fun e => slot 2 e.1 = slot 2 [99]) = []) 135 := by
    injection g with g; exact (Prod.mk.inj g).1
  rw [h135] at this
  have hne : ¬ ([(([97] : List Byte), c_t)].filter (fun e => slot 2 e.1 = slot 2 [99]) = []) := by decide
  simp only [refResult, hb1, hne, false_and, if_false] at this
  revert this
  decide

/-- Any string can be a key. -/
def AnyKey : Prop := ∀ (s : St) (n : Nat) (t key v : Int) (bs : List Byte) (H : List (List Byte × Int)),
  IsTable stringKeys s t n H → IsString s key bs → Room s 4 → ∃ s', hashSet s t key v = ok (v, s')

/-- A key whose first byte is 255 makes the interpreter abort: the hash is negative, and as an unsigned number out of the
range of the buckets. -/
theorem C13_key_false : ¬ AnyKey := by
  intro h
  obtain ⟨s', hs'⟩ := h tableState 2 116 130 c_t [255] [] (tableState_ok _)
    ⟨⟨by decide, rfl, by decide, rfl, rfl⟩, rfl⟩ ⟨by decide, by decide⟩
  have e : (hashSet tableState 116 130 c_t >>= fun p => ok p.1) = abort := by decide
  rw [hs'] at e
  cases e

/-! ## C14 -/

/-- The states the interpreter can reach from a state with a symbol table, by string->symbol and by making symbols from C
strings (the reader), mixed with any allocation and any changes outside the table, its keys, and the symbols in it.  `H` is
the contents of the table, `R` the names asked for with the symbols returned. -/
inductive InternRun (n : Nat) : St → List (List Byte × Int) → List (List Byte × Int) → Prop
  | start {s : St} {H : List (List Byte × Int)} (h : SymTable s n H) : InternRun n s H []
  | intern {s s' : St} {H R : List (List Byte × Int)} {fuel : Nat} {x r : Int} {bs : List Byte} (h : InternRun n s H R)
      (hx : IsString s x bs) (h0 : 0 ≤ hashSum bs) (hf : H.length < fuel) (hr : Room s 6)
      (hs : stringToSymbol s fuel x = ok (r, s')) :
      InternRun n s' (if (lookup bs H).getD c_f = c_f then (bs, r) :: H else H) ((bs, r) :: R)
  | cstring {s s' : St} {H R : List (List Byte × Int)} {fuel : Nat} {r : Int} {bs : List Byte} (h : InternRun n s H R)
      (h0 : 0 ≤ hashSum bs) (hm : bs.length ≤ s.maxString) (hf : H.length < fuel) (hr : Room s (stringCells bs.length + 6))
      (hs : cstringToSymbol s fuel bs = ok (r, s')) :
      InternRun n s' (if (lookup bs H).getD c_f = c_f then (bs, r) :: H else H) ((bs, r) :: R)
  | other {s s' : St} {H R : List (List Byte × Int)} {P : Int → Prop} (h : InternRun n s H R) (hf : Frame P s s')
      (hp : ∀ a, Part s s.symbols n a → ¬ P a) (hc : ¬ P c_f ∧ ¬ P c_unspecified)
      (hn : ∀ e ∈ H, ¬ P e.2 ∧ ¬ P (s.cell e.2).cdr) : InternRun n s' H R

/-- What holds in every such state: each answer given so far is what the table says for its name. -/
structure InternInv (n : Nat) (s : St) (H R : List (List Byte × Int)) : Prop where
  table : SymTable s n H
  answers : ∀ e ∈ R, lookup e.1 H = some e.2 ∧ e.2 ≠ c_f

theorem InternInv.step {n : Nat} {s s' : St} {H R : List (List Byte × Int)} {fuel : Nat} {x r : Int} {bs : List Byte}
    (h : InternInv n s H R) (hx : IsString s x bs) (h0 : 0 ≤ hashSum bs) (hf : H.length < fuel) (hr : Room s 6)
    (hs : stringToSymbol s fuel x = ok (r, s')) :
    InternInv n s' (if (lookup bs H).getD c_f = c_f then (bs, r) :: H else H) ((bs, r) :: R) := by
  obtain ⟨r', s'', g1, -, g⟩ := stringToSymbol_ok h.table hx h0 hf hr
  rw [hs] at g1; cases g1
  rcases g with ⟨g2, g3, g4, -⟩ | ⟨g2, g3, -, g4, -⟩
  · rw [if_neg (by rw [g2]; exact g3)]
    refine ⟨g4, fun e he => ?_⟩
    rcases List.mem_cons.1 he with rfl | he
    · exact ⟨g2, g3⟩
    · exact h.answers e he
  · rw [if_pos g2]
    have hrne : r ≠ c_f := by have := hr.base; simp only [c_f, c_symbol_max] at *; omega
    refine ⟨g4, fun e he => ?_⟩
    rcases List.mem_cons.1 he with rfl | he
    · exact ⟨by simp [lookup], hrne⟩
    · obtain ⟨e1, e2⟩ := h.answers e he
      have : bs ≠ e.1 := by rintro rfl; rw [e1] at g2; exact e2 g2
      exact ⟨by simp only [lookup, if_neg this]; exact e1, e2⟩

theorem internRun_inv {n : Nat} {s : St} {H R : List (List Byte × Int)} (h : InternRun n s H R) : InternInv n s H R := by
  induction h with
  | start h => exact ⟨h, by simp⟩
  | intern _ hx h0 hf hr hs ih => exact ih.step hx h0 hf hr hs
  | @cstring s s' H R fuel r bs _ h0 hm hf hr hs ih =>
    obtain ⟨s1, a1, a2, a3, a4⟩ := makeString_ok hm (hr.mono (by omega))
    simp only [cstringToSymbol, a1, ok_bind] at hs
    have ih' : InternInv n s1 H R := ⟨ih.table.ext a3, ih.answers⟩
    exact ih'.step a2 h0 hf (hr.step a3 (by omega)) hs
  | @other s s' H R P _ hf hp hc hn ih =>
    refine ⟨ih.table.frame hf hp ⟨?_, ?_⟩ hn, ih.answers⟩
    · rw [hf.same _ ih.table.table.fvalid.1.2 hc.1]; exact ih.table.table.ftag.1
    · rw [hf.same _ ih.table.table.fvalid.2.2 hc.2]; exact ih.table.table.ftag.2

/-- After any history, string->symbol gives a symbol whose text is the name. -/
theorem C14_intern {n fuel : Nat} {s : St} {H R : List (List Byte × Int)} {x : Int} {bs : List Byte} (h : InternRun n s H R)
    (hx : IsString s x bs) (h0 : 0 ≤ hashSum bs) (hf : H.length < fuel) (hr : Room s 6) :
    ∃ r s' H', stringToSymbol s fuel x = ok (r, s') ∧ InternRun n s' H' ((bs, r) :: R) ∧ HasText s' r bs ∧
      ((s'.cell r).tag = .symbol ∨ (s'.cell r).tag = .special) := by
  obtain ⟨r, s', g1, -⟩ := stringToSymbol_ok (internRun_inv h).table hx h0 hf hr
  have h' := InternRun.intern h hx h0 hf hr g1
  obtain ⟨i1, i2⟩ := internRun_inv h'
  have := i1.named _ (lookup_mem (i2 (bs, r) (by simp)).1)
  exact ⟨r, s', _, g1, h', this.1, this.2⟩

/-- The same from a C string, as the reader does it. -/
theorem C14_reader {n fuel : Nat} {s : St} {H R : List (List Byte × Int)} {bs : List Byte} (h : InternRun n s H R)
    (h0 : 0 ≤ hashSum bs) (hm : bs.length ≤ s.maxString) (hf : H.length < fuel) (hr : Room s (stringCells bs.length + 6)) :
    ∃ r s' H', cstringToSymbol s fuel bs = ok (r, s') ∧ InternRun n s' H' ((bs, r) :: R) ∧ HasText s' r bs ∧
      ((s'.cell r).tag = .symbol ∨ (s'.cell r).tag = .special) := by
  obtain ⟨s1, a1, a2, a3, a4⟩ := makeString_ok hm (hr.mono (by omega : stringCells bs.length ≤ _))
  obtain ⟨r, s', g1, -⟩ := stringToSymbol_ok ((internRun_inv h).table.ext a3) a2 h0 hf (hr.step a3 (by omega))
  have g1' : cstringToSymbol s fuel bs = ok (r, s') := by simp only [cstringToSymbol, a1, ok_bind, g1]
  have h' := InternRun.cstring h h0 hm hf hr g1'
  obtain ⟨i1, i2⟩ := internRun_inv h'
  have := i1.named _ (lookup_mem (i2 (bs, r) (by simp)).1)
  exact ⟨r, s', _, g1', h', this.1, this.2⟩

/-- Any two answers ever given are the same symbol exactly when the names are the same. -/
theorem C14_same_symbol {n : Nat} {s : St} {H R : List (List Byte × Int)} (h : InternRun n s H R) {a b : List Byte}
    {x y : Int} (hx : (a, x) ∈ R) (hy : (b, y) ∈ R) : x = y ↔ a = b := by
  obtain ⟨i1, i2⟩ := internRun_inv h
  have ha := i2 _ hx
  have hb := i2 _ hy
  constructor
  · rintro rfl
    exact ((i1.named _ (lookup_mem ha.1)).1).inj ((i1.named _ (lookup_mem hb.1)).1)
  · rintro rfl
    have := ha.1.symm.trans hb.1
    simpa using this

/-- symbol->string of every answer gives a string with the name. -/
theorem C14_symbol_to_string {n : Nat} {s : St} {H R : List (List Byte × Int)} (h : InternRun n s H R) {a : List Byte}
    {x : Int} (hx : (a, x) ∈ R) (hr : Room s 1) :
    ∃ y s', symbolToString s x = ok (y, s') ∧ IsString s' y a ∧ Ext s s' := by
  obtain ⟨i1, i2⟩ := internRun_inv h
  have ht := (i1.named _ (lookup_mem (i2 _ hx).1)).1
  simp only at ht
  have hx := push_ext s { tag := .string, car := (s.cell x).car, cdr := (s.cell x).cdr }
  have hb := hx.same _ ht.bvalid.2 id
  refine ⟨s.free, _, ?_, ⟨⟨hr.free_valid _, ?_, ?_, ?_, ?_⟩, ?_⟩, hx⟩
  · simp only [symbolToString, St.rd_ok ht.valid, ok_bind, makeCell_ok hr]
  · rw [St.push_cell_free]; exact ht.length
  · rw [St.push_cell_free]; exact hx.valid ht.bvalid
  · rw [St.push_cell_free, hb]; exact ht.btag
  · rw [St.push_cell_free, hb]; exact ht.bytes
  · rw [St.push_cell_free]

/-- The interpreter starts with a symbol table that has exactly the predefined names. -/
theorem C14_start {s : St} {fuel : Nat} (ha : 3000 ≤ s.arena) (hm : 64 ≤ s.maxString) (hf : 4 ≤ fuel) :
    ∃ s', initSymbols s fuel = ok s' ∧ InternRun 500 s' (stored predefined c_nil []) [] ∧ Fixed s' ∧ s'.free ≤ 2900 ∧
      c_symbol_max ≤ s'.free ∧ s'.arena = s.arena ∧ s'.maxString = s.maxString := by
  obtain ⟨s', h1, h2, h3, h4, h5, h6, h7, -⟩ := initSymbols_start ha hm hf
  exact ⟨s', h1, .start h2, h3, h4, h5, h6, h7⟩

/-- Any name can be interned. -/
def AnyName : Prop := ∀ (s : St) (fuel n : Nat) (x : Int) (bs : List Byte) (H : List (List Byte × Int)),
  SymTable s n H → IsString s x bs → H.length < fuel → Room s 6 → ∃ r s', stringToSymbol s fuel x = ok (r, s')

/-- A name that starts with the byte 255 makes the interpreter abort. -/
theorem C14_name_false : ¬ AnyName := by
  intro h
  obtain ⟨r, s', hs'⟩ := h { tableState with symbols := 116 } 5 2 130 [255] []
    ⟨(tableState_ok stringKeys).same ⟨rfl, rfl⟩, by simp⟩
    ⟨⟨by decide, rfl, by decide, rfl, rfl⟩, rfl⟩ (by decide) ⟨by decide, by decide⟩
  have e : (stringToSymbol { tableState with symbols := 116 } 5 130 >>= fun p => ok p.1) = abort := by decide
  rw [hs'] at e
  cases e

/-- string->symbol answers a symbol. -/
def AlwaysSymbol : Prop := ∀ (s s' : St) (fuel n : Nat) (x r : Int) (bs : List Byte) (H : List (List Byte × Int)),
  InternRun n s H [] → IsString s x bs → 0 ≤ hashSum bs → H.length < fuel → Room s 6 →
  stringToSymbol s fuel x = ok (r, s') → (s'.cell r).tag = .symbol

/-- In the state the interpreter starts in, (string->symbol "()") is the empty list. -/
theorem C14_symbol_false : ¬ AlwaysSymbol := by
  intro h
  obtain ⟨s, a1, a2, a3, a4, a5, a6, a7⟩ := C14_start (s := { sample [] with arena := 6000, maxString := 1000 }) (fuel := 4) (by decide) (by decide) (by decide)
  have hr0 : Room s 3000 := ⟨a5, by rw [a6]; show s.free + 3000 - 2 ≤ 6000; omega⟩
  obtain ⟨s1, b1, b2, b3, b4⟩ := makeString_ok (s := s) (bs := ascii ['(', ')']) (by rw [a7]; decide)
    (hr0.mono (by decide))
  have a2' : InternRun 500 s1 (stored predefined c_nil []) [] :=
    .other (P := fun _ => False) a2 b3 (fun _ _ => id) ⟨id, id⟩ (fun _ _ => ⟨id, id⟩)
  have hf : (stored predefined c_nil []).length < 200 := by decide +kernel
  have hr : Room s1 6 := hr0.step b3 (by simp only [stringCells] at b4; simp [ascii] at b4; omega)
  obtain ⟨r, s', g1, -, g⟩ := stringToSymbol_ok (internRun_inv a2').table b2 (by decide) hf hr
  have hl : lookup (ascii ['(', ')']) (stored predefined c_nil []) = some c_nil := by decide +kernel
  rw [hl] at g
  rcases g with ⟨g2, g3, g4, g⟩ | ⟨g2, -⟩
  · have := h s1 s' 200 500 s.free r _ _ a2' b2 (by decide) hf hr g1
    cases g2
    rw [g.same c_nil (Int.lt_of_lt_of_le (by decide) hr.base) id, b3.same c_nil (Int.lt_of_lt_of_le (by decide) a5) id,
      a3 c_nil (by decide) (by decide)] at this
    exact absurd this (by decide)
  · exact absurd g2 (by decide)

end Mes.Props
