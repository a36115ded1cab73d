import Verif.Proof.Reading
/-
Running to an end: the parts of the reader come to a result, or fail, after a bounded number of steps.
-/
namespace Mes
open Res Spec

/-- The computation ends; if it ends normally then its result has the property `P`. -/
def Stops {α : Type} (r : Res α) (P : α → Prop) : Prop := r ≠ loop ∧ ∀ a, r = ok a → P a

section
variable {α β : Type} {r : Res α} {P Q : α → Prop} {R : β → Prop} {f : α → Res β}

theorem Stops.ok {a : α} (h : P a) : Stops (ok a) P := ⟨by simp, fun _ e => by cases e; exact h⟩
theorem Stops.err {k : Key} : Stops (err k : Res α) P := ⟨by simp, fun _ e => by cases e⟩
theorem Stops.abort : Stops (abort : Res α) P := ⟨by simp, fun _ e => by cases e⟩
theorem Stops.ub : Stops (ub : Res α) P := ⟨by simp, fun _ e => by cases e⟩

theorem Stops.bind (h : Stops r P) (hf : ∀ a, P a → Stops (f a) R) : Stops (r >>= f) R := by
  obtain ⟨h1, h2⟩ := h
  cases r with
  | ok a => exact hf a (h2 a rfl)
  | err k => exact .err
  | abort => exact .abort
  | ub => exact .ub
  | loop => exact absurd rfl h1

theorem Stops.mono (h : Stops r P) (hf : ∀ a, P a → Q a) : Stops r Q := ⟨h.1, fun a e => hf a (h.2 a e)⟩

theorem stops_ubUnless {p : Prop} [Decidable p] : Stops (ubUnless p) (fun _ => p) := by
  by_cases h : p
  · rw [ubUnless_true h]; exact .ok h
  · rw [ubUnless_false h]; exact .ub

theorem stops_ckLong (n : Int) : Stops (ckLong n) (fun _ => True) := by
  unfold ckLong
  split
  · exact .ok trivial
  · exact .ub

end

variable {E : Env} {s s' s'' : St} {w w' : In} {H H' : List (List Byte × Int)} {t t' bs : List Byte} {n : Nat}

/-! ### Allocation -/

theorem stops_makeCell (hb : c_symbol_max ≤ s.free) (g : Tag) (a d : Int) :
    Stops (makeCell s g a d) (fun r => Room s 1 ∧ r = (s.free, s.push { tag := g, car := a, cdr := d })) := by
  by_cases h : Room s 1
  · rw [makeCell_ok h]; exact .ok ⟨h, rfl⟩
  · have : makeCell s g a d = abort := by
      unfold makeCell
      dsimp only
      refine if_pos (.inr ?_)
      apply Decidable.byContradiction
      intro h'
      exact h ⟨hb, by omega⟩
    rw [this]; exact .abort

theorem Room.base_ext (hb : c_symbol_max ≤ s.free) (hx : Ext s s') : c_symbol_max ≤ s'.free := Int.le_trans hb hx.le

theorem stops_alloc (hb : c_symbol_max ≤ s.free) (k : Int) (hk : 0 ≤ k) :
    Stops (alloc s k) (fun r => Room s k ∧ r = (s.free, { s with free := s.free + k })) := by
  by_cases h : Room s k
  · have : alloc s k = Res.ok (s.free, { s with free := s.free + k }) := by
      unfold alloc
      dsimp only
      refine if_neg ?_
      have := h.room
      simp only [c_symbol_max, g_cells] at *
      omega
    rw [this]; exact .ok ⟨h, rfl⟩
  · have : alloc s k = Res.abort := by
      unfold alloc
      dsimp only
      refine if_pos (.inr ?_)
      apply Decidable.byContradiction
      intro h'
      exact h ⟨hb, by omega⟩
    rw [this]; exact .abort

theorem stops_makeString (hb : c_symbol_max ≤ s.free) (bs : List Byte) :
    Stops (makeString s bs) (fun r => r.1 = s.free ∧ IsString r.2 s.free bs ∧ Ext s r.2) := by
  unfold makeString
  split
  · exact .err
  · refine (stops_makeCell hb ..).bind fun ⟨x, s1⟩ ⟨r1, e⟩ => ?_
    cases e
    have e1 := push_ext s { tag := .string, car := bs.length, cdr := 0 }
    dsimp only
    by_cases r2 : Room (s.push { tag := .string, car := bs.length, cdr := 0 }) (bytesCells (bs ++ [0]).length)
    · obtain ⟨s2, g1, g2, g3, g4, g5⟩ := makeBytes_ok r2
      rw [g1]
      simp only [St.push_free] at g1 g3 g4 g5
      have hv2 : s2.Valid s.free := g2.valid (r1.free_valid _)
      have hc2 : s2.cell s.free = { tag := .string, car := bs.length, cdr := 0 } := by
        rw [g2.same s.free (by simp; omega) id]; simp
      simp only [ok_bind, St.setCdr, St.rd_ok hv2, St.put_ok _ hv2, St.push_free]
      refine .ok ⟨rfl, ⟨⟨hv2, ?_, ?_, ?_, ?_⟩, ?_⟩, (e1.trans g2).trans' (upd_frame s2 s.free { s2.cell s.free with cdr := s.free + 1 })
        (fun a h1 h2 => by omega)⟩
      · simp [hc2]
      · simpa using g4
      · rw [St.upd_cell_same]
        simp only
        rw [St.upd_cell_ne _ (by omega), g5]
      · rw [St.upd_cell_same]
        simp only
        rw [St.upd_cell_ne _ (by omega), g5]
      · simp [hc2]
    · unfold makeBytes
      rw [Res.bind_assoc']
      refine (stops_alloc (Room.base_ext hb e1) _ (by unfold bytesCells; omega)).bind fun _ ⟨h, _⟩ => absurd h r2

/-! ### Interning -/

theorem hashSet__full (h : IsTable stringKeys s s.symbols n H) (hb : c_symbol_max ≤ s.free) (hr : ¬ Room s 3) (name : List Byte) (key v : Int) :
    Stops (hashSet_ s s.symbols (slot n name) key v) (fun _ => False) := by
  have hsl := slot_lt (n := n) name h.pos
  obtain ⟨hbv, hc⟩ := bucket_cases (h.bucket _ hsl) h.fvalid.2 h.ftag.2
  simp only [hashSet_, tableBuckets_ok h, ok_bind, tableBucket_ok h hsl, St.rd_ok hbv, acons, cons]
  generalize (if (s.cell (s.cell ((s.cell (bucketsOf s s.symbols)).cdr + (slot n name : Int))).car).tag ≠ .pair then c_nil
    else (s.cell ((s.cell (bucketsOf s s.symbols)).cdr + (slot n name : Int))).car) = b
  rw [Res.bind_assoc']
  refine (stops_makeCell hb ..).bind fun ⟨x, s1⟩ ⟨r1, e1⟩ => ?_
  cases e1
  dsimp only
  have x1 := push_ext s { tag := .pair, car := key, cdr := v }
  have b1 := Room.base_ext hb x1
  refine (stops_makeCell b1 ..).bind fun ⟨x, s2⟩ ⟨r2, e2⟩ => ?_
  cases e2
  dsimp only
  have x2 := push_ext (s.push { tag := .pair, car := key, cdr := v }) { tag := .pair, car := s.free, cdr := b }
  have b2 := Room.base_ext b1 x2
  have f2 := r2.free_valid { tag := .pair, car := s.free, cdr := b }
  have h2 := h.ext stringKeys_ok (x1.trans x2)
  have eb : bucketsOf ((s.push { tag := .pair, car := key, cdr := v }).push { tag := .pair, car := s.free, cdr := b }) s.symbols = bucketsOf s s.symbols :=
    h.bucketsOf_frame (x1.trans x2) id id
  have fr : ((s.push { tag := .pair, car := key, cdr := v }).push { tag := .pair, car := s.free, cdr := b }).free = s.free + 2 := by
    simp; omega
  have ar : ((s.push { tag := .pair, car := key, cdr := v }).push { tag := .pair, car := s.free, cdr := b }).arena = s.arena := rfl
  have hcell : ((s.push { tag := .pair, car := key, cdr := v }).push { tag := .pair, car := s.free, cdr := b }).cell
    (s.push { tag := .pair, car := key, cdr := v }).free = { tag := .pair, car := s.free, cdr := b } := St.push_cell_free _
  generalize (s.push { tag := .pair, car := key, cdr := v }).push { tag := .pair, car := s.free, cdr := b } = s2 at *
  have hvv := h2.vvalid; rw [eb] at hvv
  have hvt := h2.vtag; rw [eb] at hvt
  have hvl := h2.vlength; rw [eb] at hvl
  rw [vectorSet, St.rd_ok hvv]
  simp only [ok_bind, assert_true hvt, hvl, assert_true (show ((slot n name : Nat) : Int) < n by omega), setEntry, vectorEntry,
    St.rd_ok f2, hcell]
  rw [if_pos (by decide)]
  simp only [makeRef]
  have : ¬ Room s2 1 := fun h' => hr ⟨hb, by have := h'.room; rw [fr, ar] at this; omega⟩
  have e : ∀ a, makeCell s2 .ref a 0 = abort := fun a => by
    unfold makeCell
    dsimp only
    refine if_pos (.inr ?_)
    apply Decidable.byContradiction
    intro h'
    exact this ⟨b2, by omega⟩
  rw [e]
  exact .abort

theorem stops_tableSize (h : IsTable stringKeys s s.symbols n H) (hb : c_symbol_max ≤ s.free) :
    Stops (structRef s s.symbols 3) (fun r => Room s 1 ∧ r = (s.free, s.push { tag := .number, car := 0, cdr := (n : Int) })) := by
  have hs := h.size
  simp only [structRef, St.rd_ok h.valid, ok_bind, assert_true h.tag, h.length, assert_true (show (3 : Int) < 5 by decide),
    fetch, deref, St.rd_ok hs.valid, hs.tag]
  simp only [show ¬ (Tag.number = Tag.ref) by decide, if_false, ok_bind, St.rd_ok hs.valid, hs.tag, show ¬ (Tag.number = Tag.char) by decide,
    if_true, makeNumber, hs.value]
  exact stops_makeCell hb ..

theorem stops_makeSymbol {x : Int} {name : List Byte} (h : SymTable s n H) (hx : IsString s x name) (h0 : 0 ≤ hashSum name)
    (hb : c_symbol_max ≤ s.free) (hr : ¬ Room s 5) : Stops (makeSymbol s x) (fun _ => False) := by
  simp only [makeSymbol, St.rd_ok hx.valid, ok_bind]
  refine (stops_makeCell hb ..).bind fun ⟨y, s1⟩ ⟨r1, e1⟩ => ?_
  cases e1
  have x1 := push_ext s { tag := .symbol, car := (s.cell x).car, cdr := (s.cell x).cdr }
  have fr1 : (s.push { tag := .symbol, car := (s.cell x).car, cdr := (s.cell x).cdr }).free = s.free + 1 := by simp
  have ar1 : (s.push { tag := .symbol, car := (s.cell x).car, cdr := (s.cell x).cdr }).arena = s.arena := rfl
  dsimp only
  generalize s.push { tag := .symbol, car := (s.cell x).car, cdr := (s.cell x).cdr } = s1 at *
  have h1 := h.ext x1
  have b1 := Room.base_ext hb x1
  have hx1 := hx.ext x1
  suffices Stops (hashSet s1 s1.symbols x s.free) (fun _ => False) from this.bind fun _ h => h.elim
  unfold hashSet
  refine (stops_tableSize h1.table b1).bind fun ⟨y, s2⟩ ⟨r2, e2⟩ => ?_
  cases e2
  have x2 := push_ext s1 { tag := .number, car := 0, cdr := (n : Int) }
  have fr2 : (s1.push { tag := .number, car := 0, cdr := (n : Int) }).free = s1.free + 1 := by simp
  have ar2 : (s1.push { tag := .number, car := 0, cdr := (n : Int) }).arena = s1.arena := rfl
  have f2 := r2.free_valid { tag := .number, car := 0, cdr := (n : Int) }
  have c2 : (s1.push { tag := .number, car := 0, cdr := (n : Int) }).cell s1.free = { tag := .number, car := 0, cdr := (n : Int) } :=
    St.push_cell_free _
  dsimp only
  generalize s1.push { tag := .number, car := 0, cdr := (n : Int) } = s2 at *
  have h2 := h1.ext x2
  obtain ⟨hv, e1, e2⟩ := hash_ok (hx1.ext x2) h0 h2.table.pos h2.table.small
  rw [St.cdr_ok f2, ok_bind, c2]
  dsimp only
  rw [e1, ok_bind, e2, ← x2.symbols]
  exact hashSet__full h2.table (Room.base_ext b1 x2) (fun h' => hr ⟨hb, by have := h'.room; rw [fr2, ar2, fr1, ar1] at this; omega⟩) ..

theorem stops_stringToSymbol {x : Int} {name : List Byte} (h : Reading E s w H bs false) (hx : IsString s x name) (h0 : 0 ≤ hashSum name)
    (hk : H.length < E.k) : Stops (stringToSymbol s E.k x) (fun r => ∃ H', Reading E r.2 w H' bs false ∧ Frame E.touch s r.2 ∧
      H'.length ≤ H.length + 1 ∧ HasText r.2 r.1 name) := by
  have hb := h.names.base
  by_cases hr : Room s 6
  · obtain ⟨y, s2, k1, k2, k3⟩ := stringToSymbol_ok h.sym hx h0 hk hr
    rw [k1]
    rcases k3 with ⟨l1, l2, l3, l4⟩ | ⟨l1, l2, l3, l4, l5⟩
    · exact .ok ⟨H, h.ext l4, l4.frame, by omega, (l3.named _ (lookup_mem l1)).1⟩
    · have hslot := slot_lt (n := E.n) name h.sym.table.pos
      have hbc : bucketCell s s.symbols E.n name = E.b + slot E.n name := by unfold bucketCell; rw [h.buckets]
      have href : ∀ a, s.Valid a → a = bucketCell s s.symbols E.n name → (s.cell a).tag = .ref := fun a _ e => by
        rw [e]; exact h.sym.table.btag _ hslot
      have hg : Grown H ((name, y) :: H) := fun nm a hn hl => by
        by_cases e : name = nm
        · subst e
          rw [hl] at l1
          simp only [Option.getD_some] at l1
          subst l1
          exact absurd ((h.sym.named _ (lookup_mem hl)).1.inj h.names.fls) hn
        · rwa [lookup_cons_ne e]
      have hpart : ∀ {a}, s.Valid a → (s.cell a).tag ≠ .ref → ¬ a = bucketCell s s.symbols E.n name := fun hv ht e =>
        ht (href _ hv e)
      have hbuck : (s2.cell (bucketsOf s2 s2.symbols)).cdr = E.b := by
        have T := h.sym.table
        have e0 := l5.same _ T.valid.2 (hpart T.valid (by simp [T.tag]))
        have e1 := l5.same _ T.rvalid.2 (fun e => T.apart _ hslot (by rw [e]; rfl))
        have e2 : bucketsOf s2 s2.symbols = bucketsOf s s.symbols := by
          rw [l5.symbols]; unfold bucketsOf; rw [e0, e1]
        rw [e2, l5.same _ T.vvalid.2 (hpart T.vvalid (by simp [T.vtag]))]
        exact h.buckets
      exact .ok ⟨(name, y) :: H, ⟨l4, hbuck, h.input.frame l5 href, h.names.keep l5 (fun a hv ha => .inl (href a hv ha)) hg, by
          rw [l5.maxString]; exact h.mx⟩, l5.mono (fun a _ ha => by rw [ha, hbc]; exact .inr ⟨by omega, by omega⟩), by simp,
        (l4.named _ (List.mem_cons_self ..)).1⟩
  · unfold stringToSymbol
    by_cases r1 : Room s 1
    · have g1 := hashRef_ok (dflt := c_f) h.sym.table hx h0 h.sym.table.fvalid.1 hk r1
      rw [g1]
      simp only [ok_bind]
      have x1 := push_ext s { tag := .number, car := 0, cdr := (E.n : Int) }
      have fr : (s.push { tag := .number, car := 0, cdr := (E.n : Int) }).free = s.free + 1 := by simp
      have ar : (s.push { tag := .number, car := 0, cdr := (E.n : Int) }).arena = s.arena := rfl
      generalize s.push { tag := .number, car := 0, cdr := (E.n : Int) } = s1 at *
      split
      · exact (stops_makeSymbol (h.sym.ext x1) (hx.ext x1) h0 (Room.base_ext hb x1)
          (fun h' => hr ⟨hb, by have := h'.room; rw [fr, ar] at this; omega⟩)).mono fun _ h => h.elim
      · rename_i hne
        refine .ok ⟨H, h.ext x1, x1.frame, by omega, ?_⟩
        unfold refResult at hne ⊢
        rw [h.sym.table.ftag.1] at hne ⊢
        cases hl : lookup name H with
        | none => rw [hl] at hne; simp at hne
        | some v => exact ((h.sym.ext x1).named _ (lookup_mem hl)).1
    · unfold hashRef
      rw [Res.bind_assoc']
      exact (stops_tableSize h.sym.table hb).bind fun _ ⟨h', _⟩ => absurd h' r1

theorem stops_intern {name : List Byte} (h : Reading E s w H bs false) (h0 : 0 ≤ hashSum name) (hk : H.length < E.k) :
    Stops (cstringToSymbol s E.k name) (fun r => ∃ H', Reading E r.2 w H' bs false ∧ Frame E.touch s r.2 ∧ H'.length ≤ H.length + 1 ∧
      HasText r.2 r.1 name) := by
  unfold cstringToSymbol
  refine (stops_makeString h.names.base name).bind fun ⟨x, s1⟩ ⟨e, h1, h2⟩ => ?_
  dsimp only at e h1 h2 ⊢
  subst e
  exact (stops_stringToSymbol (h.ext h2) h1 h0 hk).mono fun r ⟨H', g1, g2, g3, g4⟩ => ⟨H', g1, h2.frame.trans g2, g3, g4⟩

/-! ### Vectors -/

theorem stops_setEntry {s₀ : St} (hx : Ext s₀ s) (hb : c_symbol_max ≤ s₀.free) {a : Int} (ha : s₀.free ≤ a) (e : Int) :
    Stops (setEntry s a e) (fun s' => Ext s₀ s') := by
  have hb' := Room.base_ext hb hx
  have key : ∀ {s1 : St} {x : Int}, Ext s₀ s1 → Stops (s1.copyCell a x) (fun s' => Ext s₀ s') := fun {s1 x} h1 => by
    unfold St.copyCell
    by_cases hv : s1.Valid x
    · rw [St.rd_ok hv, ok_bind]
      by_cases hv2 : s1.Valid a
      · rw [St.put_ok _ hv2]
        exact .ok (h1.trans' (upd_frame s1 a _) (fun b h3 h4 => by omega))
      · unfold St.put; rw [if_neg hv2]; exact .ub
    · unfold St.rd; rw [if_neg hv]; exact .ub
  unfold setEntry vectorEntry
  by_cases hv : s.Valid e
  · rw [St.rd_ok hv, ok_bind]
    split
    · refine (stops_makeCell hb' ..).bind fun ⟨x, s1⟩ ⟨_, e1⟩ => ?_
      cases e1
      exact key (hx.trans (push_ext _ _))
    · exact key hx
  · unfold St.rd; rw [if_neg hv]; exact .ub

theorem stops_fillVector {s₀ : St} (hb : c_symbol_max ≤ s₀.free) (e : Int) : ∀ (m : Nat) (s : St) (v : Int), Ext s₀ s → s₀.free ≤ v →
    Stops (fillVector m s v e) (fun s' => Ext s₀ s')
  | 0, s, v, hx, _ => .ok hx
  | m + 1, s, v, hx, hv => (stops_setEntry hx hb hv e).bind fun s1 h1 => stops_fillVector hb e m s1 (v + 1) h1 (by omega)

theorem stops_fillFromList {α : Type} {s₀ : St} {R : Int → α → Prop} (hb : c_symbol_max ≤ s₀.free) : ∀ (fuel : Nat) (s : St) (v x : Int) (l : List α), Ext s₀ s → s₀.free ≤ v →
    ListOf s₀ R x l → l.length < fuel → Stops (fillFromList fuel s v x) (fun s' => Ext s₀ s')
  | 0, _, _, _, _, _, _, _, hf => by omega
  | fuel + 1, s, v, x, l, hx, hv, hl, hf => by
    unfold fillFromList
    cases hl with
    | nil => rw [if_pos rfl]; exact .ok hx
    | @cons _ _ ys hne hxv ht _ hl =>
      rw [if_neg hne]
      have e := hx.same _ hxv.2 id
      have hxv' := hx.valid hxv
      unfold carP cdrP
      rw [St.rd_ok hxv', ok_bind, e, if_neg (by rw [ht]; decide), ok_bind]
      refine (stops_setEntry hx hb hv _).bind fun s1 h1 => ?_
      have e1 := h1.same _ hxv.2 id
      rw [St.rd_ok (h1.valid hxv), ok_bind, e1, if_neg (by rw [ht]; decide), ok_bind]
      exact stops_fillFromList hb fuel s1 (v + 1) _ ys h1 (by omega) hl (by simp at hf; omega)

theorem stops_listToVector {α : Type} {R : Int → α → Prop} {x : Int} {l : List α} {fuel : Nat} (hb : c_symbol_max ≤ s.free) (hl : ListOf s R x l)
    (hf : l.length < fuel) : Stops (listToVector s fuel x) (fun r => r.1 = s.free ∧ Ext s r.2) := by
  unfold listToVector
  rw [length_ok hl hf, ok_bind]
  suffices h : Stops (makeVector s l.length c_unspecified) (fun r => r.1 = s.free ∧ Ext s r.2 ∧ (r.2.Valid s.free → s.free ≤ (r.2.cell s.free).cdr)) by
    refine h.bind fun ⟨v, s1⟩ ⟨e, h1, h2⟩ => ?_
    dsimp only at e h1 h2 ⊢
    subst e
    unfold St.cdr
    by_cases hv : s1.Valid s.free
    · rw [St.rd_ok hv]
      simp only [ok_bind]
      refine (stops_fillFromList hb fuel s1 _ x l h1 (h2 hv) hl hf).bind fun s2 h3 => .ok ⟨rfl, h3⟩
    · unfold St.rd; rw [if_neg hv]; exact .ub
  unfold makeVector
  refine (stops_alloc hb 1 (by decide)).bind fun ⟨a, s1⟩ ⟨_, e⟩ => ?_
  cases e
  dsimp only
  have x1 : Ext s { s with free := s.free + 1 } := ⟨by simp only; omega, fun _ _ _ => rfl, rfl⟩
  refine (stops_alloc (Room.base_ext hb x1) _ (by omega)).bind fun ⟨a, s2⟩ ⟨_, e⟩ => ?_
  cases e
  dsimp only
  have x2 : Ext s { s with free := s.free + 1 + (l.length : Int) } := ⟨by simp only; omega, fun _ _ _ => rfl, rfl⟩
  have hv : ({ s with free := s.free + 1 + (l.length : Int) } : St).Valid s.free := by
    refine ⟨?_, ?_⟩
    · simp only [c_symbol_max] at hb; omega
    · show s.free < s.free + 1 + (l.length : Int); omega
  rw [St.put_ok _ hv, ok_bind]
  have e1 : Ext s (s.push { tag := .vector, car := (l.length : Int), cdr := s.free + 1 }) := push_ext ..
  have e2 : Ext (s.push { tag := .vector, car := (l.length : Int), cdr := s.free + 1 })
      (({ s with free := s.free + 1 + (l.length : Int) } : St).upd s.free { tag := .vector, car := (l.length : Int), cdr := s.free + 1 }) :=
    ⟨by simp; omega, fun a _ _ => rfl, rfl⟩
  refine (stops_fillVector (Room.base_ext hb e1) _ _ _ _ e2 (by simp)).bind fun s3 h3 => .ok ⟨rfl, e1.trans h3, fun _ => ?_⟩
  dsimp only
  rw [h3.same s.free (by simp; omega) id, St.push_cell_free]
  show s.free ≤ s.free + 1
  omega

end Mes
