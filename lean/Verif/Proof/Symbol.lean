import Verif.Proof.Hash
import Verif.Model.Symbol
namespace Mes
open Res Spec

variable {s s' : St} {P : Int → Prop} {n : Nat} {H : List (List Byte × Int)}

theorem lookup_mem {α : Type} [DecidableEq α] {k : α} {v : Int} {H : List (α × Int)} (h : lookup k H = some v) : (k, v) ∈ H := by
  induction H with
  | nil => cases h
  | cons e H ih =>
    simp only [lookup] at h
    split at h
    · rename_i he; cases h; subst he; exact List.mem_cons_self ..
    · exact List.mem_cons_of_mem _ (ih h)

theorem Spec.SymTable.frame (h : SymTable s n H) (hf : Frame P s s') (hp : ∀ a, Part s s.symbols n a → ¬ P a)
    (hs : (s'.cell c_f).tag = .special ∧ (s'.cell c_unspecified).tag = .special)
    (hn : ∀ e ∈ H, ¬ P e.2 ∧ ¬ P (s.cell e.2).cdr) : SymTable s' n H := by
  refine ⟨by rw [hf.symbols]; exact h.table.frame stringKeys_ok hf hp hs, fun e he => ?_⟩
  obtain ⟨h1, h2⟩ := h.named e he
  obtain ⟨n1, n2⟩ := hn e he
  exact ⟨h1.frame hf n1 n2, by rw [hf.same _ h1.valid.2 n1]; exact h2⟩

theorem Spec.SymTable.ext (h : SymTable s n H) (hf : Ext s s') : SymTable s' n H :=
  h.frame hf (fun _ _ => id) ⟨by rw [hf.same _ h.table.fvalid.1.2 id]; exact h.table.ftag.1,
    by rw [hf.same _ h.table.fvalid.2.2 id]; exact h.table.ftag.2⟩ (fun _ _ => ⟨id, id⟩)

/-- A new name with its symbol is stored. -/
theorem SymTable.store (h : SymTable s n H) {x v : Int} {bs : List Byte} (hx : IsString s x bs) (h0 : 0 ≤ hashSum bs)
    (hv : HasText s v bs) (ht : (s.cell v).tag = .symbol ∨ (s.cell v).tag = .special) (hr : Room s 4) :
    ∃ s', hashSet s s.symbols x v = ok (v, s') ∧ SymTable s' n ((bs, v) :: H) ∧
      Frame (· = bucketCell s s.symbols n bs) s s' ∧ s'.free ≤ s.free + 4 := by
  obtain ⟨s', h1, h2, h3, h4⟩ := hashSet_ok (v := v) h.table hx h0 hr
  refine ⟨s', h1, ⟨by rw [h3.symbols]; exact h2, fun e he => ?_⟩, h3, h4⟩
  have hbt := h.table.btag _ (slot_lt (n := n) bs h.table.pos)
  have key : ∀ (a : Int) (cs : List Byte), HasText s a cs → ((s.cell a).tag = .symbol ∨ (s.cell a).tag = .special) →
      HasText s' a cs ∧ ((s'.cell a).tag = .symbol ∨ (s'.cell a).tag = .special) := by
    intro a cs g1 g2
    have n1 : ¬ a = bucketCell s s.symbols n bs := by
      rintro rfl
      unfold bucketCell at g2
      rw [hbt] at g2
      rcases g2 with g2 | g2 <;> cases g2
    have n2 : ¬ (s.cell a).cdr = bucketCell s s.symbols n bs := by
      intro e
      have := g1.btag
      rw [e] at this
      unfold bucketCell at this
      rw [hbt] at this; cases this
    exact ⟨g1.frame h3 n1 n2, by rw [h3.same _ g1.valid.2 n1]; exact g2⟩
  rcases List.mem_cons.1 he with rfl | he
  · exact key _ _ hv ht
  · exact key _ _ (h.named e he).1 (h.named e he).2

/-- `string_to_symbol`: a symbol found in the table, or a new one. -/
theorem stringToSymbol_ok {fuel : Nat} {x : Int} {bs : List Byte} (h : SymTable s n H) (hx : IsString s x bs)
    (h0 : 0 ≤ hashSum bs) (hf : H.length < fuel) (hr : Room s 6) :
    ∃ r s', stringToSymbol s fuel x = ok (r, s') ∧ s'.free ≤ s.free + 6 ∧
      ((lookup bs H = some r ∧ r ≠ c_f ∧ SymTable s' n H ∧ Ext s s') ∨
       ((lookup bs H).getD c_f = c_f ∧ s.free ≤ r ∧ (s'.cell r).tag = .symbol ∧ SymTable s' n ((bs, r) :: H) ∧
         Frame (· = bucketCell s s.symbols n bs) s s')) := by
  have hfv := h.table.fvalid.1
  have hft := h.table.ftag.1
  have g1 := hashRef_ok (dflt := c_f) h.table hx h0 hfv hf (hr.mono (by decide))
  have hres : refResult s bs H (H.filter (fun e => slot n e.1 = slot n bs) = []) c_f = (lookup bs H).getD c_f := by
    unfold refResult
    rw [hft]
    cases lookup bs H <;> simp
  rw [hres] at g1
  have x1 := push_ext s { tag := .number, car := 0, cdr := (n : Int) }
  have r1 : Room (s.push { tag := .number, car := 0, cdr := (n : Int) }) 5 := hr.step x1 (by simp; omega)
  have hfr1 : (s.push { tag := .number, car := 0, cdr := (n : Int) }).free = s.free + 1 := by simp
  generalize s.push { tag := .number, car := 0, cdr := (n : Int) } = s1 at *
  have t1 := h.ext x1
  have hx1 := hx.ext x1
  by_cases hc : (lookup bs H).getD c_f = c_f
  · -- a new symbol
    have m1 := makeCell_ok (r1.mono (by decide)) .symbol (s1.cell x).car (s1.cell x).cdr
    have x2 := push_ext s1 { tag := .symbol, car := (s1.cell x).car, cdr := (s1.cell x).cdr }
    have f2 := r1.free_valid { tag := .symbol, car := (s1.cell x).car, cdr := (s1.cell x).cdr }
    have r2 : Room (s1.push { tag := .symbol, car := (s1.cell x).car, cdr := (s1.cell x).cdr }) 4 :=
      r1.step x2 (by simp; omega)
    have c2 : (s1.push { tag := .symbol, car := (s1.cell x).car, cdr := (s1.cell x).cdr }).cell s1.free =
      { tag := .symbol, car := (s1.cell x).car, cdr := (s1.cell x).cdr } := by simp
    have hfr2 : (s1.push { tag := .symbol, car := (s1.cell x).car, cdr := (s1.cell x).cdr }).free = s1.free + 1 := by simp
    generalize s1.push { tag := .symbol, car := (s1.cell x).car, cdr := (s1.cell x).cdr } = s2 at *
    have t2 := t1.ext x2
    have hb : s2.cell (s1.cell x).cdr = s1.cell (s1.cell x).cdr := x2.same _ hx1.bvalid.2 id
    have htext : HasText s2 s1.free bs :=
      ⟨f2, by rw [c2]; exact hx1.length, by rw [c2]; exact x2.valid hx1.bvalid, by rw [c2, hb]; exact hx1.btag,
        by rw [c2, hb]; exact hx1.bytes⟩
    obtain ⟨s3, k1, k2, k3, k4⟩ := SymTable.store t2 (hx1.ext x2) h0 htext (by rw [c2]; exact .inl rfl) r2
    have x12 : Ext s s2 := x1.trans x2
    have hbc : bucketCell s2 s2.symbols n bs = bucketCell s s.symbols n bs := by
      rw [x12.symbols]; exact bucketCell_ext h.table x12 bs
    rw [hbc] at k3
    refine ⟨s1.free, s3, ?_, by omega, .inr ⟨hc, by omega, ?_, k2, x12.frame.trans k3⟩⟩
    · simp only [stringToSymbol, g1, ok_bind, hc, if_true, makeSymbol, St.rd_ok hx1.valid, m1, k1]
    · have := (k2.named _ (List.mem_cons_self ..)).1
      rw [k3.same _ f2.2, c2]
      intro e
      have hbt := t2.table.btag _ (slot_lt (n := n) bs t2.table.pos)
      have : bucketCell s2 s2.symbols n bs = s1.free := by rw [hbc]; exact e.symm
      unfold bucketCell at this
      rw [this, c2] at hbt
      cases hbt
  · cases hl : lookup bs H with
    | none => rw [hl] at hc; exact absurd rfl hc
    | some r =>
      rw [hl] at hc g1
      refine ⟨r, s1, ?_, by omega, .inl ⟨rfl, hc, t1, x1⟩⟩
      simp only [stringToSymbol, g1, ok_bind, Option.getD_some]
      rw [Option.getD_some] at hc
      rw [if_neg hc]

/-! ### The predefined symbols -/

theorem initSymbols0_ok : ∀ (l : List (Tag × List Byte)) (s : St), (initSymbols0 l s).free = s.free + l.length ∧
    (∀ i : Nat, ∀ e, l[i]? = some e → ((initSymbols0 l s).cell (s.free + i)).tag = e.1) ∧
    (∀ a, a < s.free → (initSymbols0 l s).cell a = s.cell a) ∧ (initSymbols0 l s).arena = s.arena ∧
    (initSymbols0 l s).maxString = s.maxString ∧ (initSymbols0 l s).safety = s.safety ∧ (initSymbols0 l s).stackSize = s.stackSize
  | [], s => ⟨by simp [initSymbols0], by simp, fun _ _ => rfl, rfl, rfl, rfl, rfl⟩
  | e :: l, s => by
    obtain ⟨h1, h2, h3, h4, h5, h6, h7⟩ := initSymbols0_ok l (initSymbol0 s e.1)
    have hf : (initSymbol0 s e.1).free = s.free + 1 := rfl
    have hc : ∀ a, (initSymbol0 s e.1).cell a = if a = s.free then { s.cell s.free with tag := e.1 } else s.cell a :=
      fun a => rfl
    refine ⟨by simp only [initSymbols0, h1, hf, List.length_cons]; omega, fun i e' hi => ?_, fun a ha => ?_, h4, h5, h6, h7⟩
    · cases i with
      | zero =>
        simp only [List.getElem?_cons_zero, Option.some.injEq] at hi
        subst hi
        simp only [initSymbols0, Int.natCast_zero, Int.add_zero]
        rw [h3 _ (by omega), hc, if_pos rfl]
      | succ i =>
        have := h2 i e' (by simpa using hi)
        simp only [initSymbols0]
        rwa [hf, show s.free + 1 + (i : Int) = s.free + ((i + 1 : Nat) : Int) by omega] at this
    · simp only [initSymbols0]
      rw [h3 a (by omega), hc, if_neg (by omega)]

/-- The entries of the symbol table after storing the names `l` from the address `x` on. -/
def stored : List (Tag × List Byte) → Int → List (List Byte × Int) → List (List Byte × Int)
  | [], _, H => H
  | e :: l, x, H => stored l (x + 1) ((e.2, x) :: H)

theorem setTag_ok {x : Int} (h : s.Valid x) (t : Tag) : s.setTag x t = ok (s.upd x { s.cell x with tag := t }) := by
  simp [St.setTag, h]
theorem setCar_ok {x : Int} (h : s.Valid x) (v : Int) : s.setCar x v = ok (s.upd x { s.cell x with car := v }) := by
  simp [St.setCar, h]
theorem setCdr_ok {x : Int} (h : s.Valid x) (v : Int) : s.setCdr x v = ok (s.upd x { s.cell x with cdr := v }) := by
  simp [St.setCdr, h]

theorem Spec.Frame.safety' {P : Int → Prop} {s s' : St} (h : Frame P s s') : s'.safety = s.safety := by rw [← h.rest]
theorem Spec.Frame.stackSize' {P : Int → Prop} {s s' : St} (h : Frame P s s') : s'.stackSize = s.stackSize := by rw [← h.rest]

/-- One predefined symbol gets its name. -/
theorem initSymbol_ok {x : Int} {t : Tag} {name : List Byte} (h : SymTable s n H) (hfix : Fixed s) (hx1 : c_nil ≤ x)
    (hx2 : x < c_symbol_max) (hH : ∀ e ∈ H, e.2 ≠ x) (ht : t = if x < 46 then .special else .symbol)
    (h0 : 0 ≤ hashSum name) (hm : name.length ≤ s.maxString) (hr : Room s (stringCells name.length + 4)) :
    ∃ s', initSymbol s x t name = ok s' ∧ SymTable s' n ((name, x) :: H) ∧ Fixed s' ∧
      s'.free ≤ s.free + stringCells name.length + 4 ∧ s'.arena = s.arena ∧ s'.maxString = s.maxString ∧ s.free ≤ s'.free ∧
      s'.symbols = s.symbols ∧ s'.safety = s.safety ∧ s'.stackSize = s.stackSize := by
  have hvx : s.Valid x := hr.valid (by simp only [c_nil] at hx1; omega) hx2
  have hself : s.upd x { s.cell x with tag := t } = s := by
    have : (s.cell x).tag = t := by rw [ht]; exact hfix x hx1 hx2
    unfold St.upd
    rw [← this]
    have : (fun b => if b = x then s.cell x else s.cell b) = s.cell := by
      funext b; by_cases hb : b = x
      · subst hb; simp
      · simp [hb]
    simp only [this]
  obtain ⟨s1, a1, a2, a3, a4⟩ := makeString_ok (s := s) (bs := name) hm (hr.mono (by omega))
  have v1 := a3.valid hvx
  have hc1 : s1.cell x = s.cell x := a3.same x hvx.2 id
  generalize hs2 : s1.upd x { s1.cell x with car := (name.length : Int) } = s2
  have v2 : s2.Valid x := by rw [← hs2]; exact v1
  have hstr2 : s2.cell s.free = s1.cell s.free := by
    rw [← hs2, St.upd_cell_ne _ (by have := hvx.2; omega)]
  have hc2 : s2.cell x = { s1.cell x with car := (name.length : Int) } := by rw [← hs2]; simp
  generalize hs3 : s2.upd x { s2.cell x with cdr := (s1.cell s.free).cdr } = s3
  have hc3 : s3.cell x = { s.cell x with car := (name.length : Int), cdr := (s1.cell s.free).cdr } := by
    rw [← hs3]; simp [hc2, hc1]
  have f23 : Frame (· = x) s1 s3 := by
    have e1 := upd_frame s1 x { s1.cell x with car := (name.length : Int) }
    rw [hs2] at e1
    have e2 := upd_frame s2 x { s2.cell x with cdr := (s1.cell s.free).cdr }
    rw [hs3] at e2
    exact e1.trans e2
  have t1 := h.ext a3
  have htag : (s1.cell x).tag = .special ∨ (s1.cell x).tag = .symbol := by
    rw [hc1, hfix x hx1 hx2]; split <;> simp
  have htag3 : (s3.cell x).tag = (s1.cell x).tag := by rw [hc3, hc1]
  have hfix1 := hfix.ext hr.base a3
  have hfix3 : Fixed s3 := by
    intro a h1 h2
    by_cases hax : a = x
    · subst hax; rw [htag3]; exact hfix1 a h1 h2
    · rw [f23.same a (by have := hr.base; have := a3.le; omega) hax]; exact hfix1 a h1 h2
  have hspec : ∀ a, (s1.cell a).tag = .special → s1.Valid a → (s3.cell a).tag = .special := fun a ha hva => by
    by_cases hax : a = x
    · subst hax; rw [htag3]; exact ha
    · rw [f23.same a hva.2 hax]; exact ha
  have t3 : SymTable s3 n H := by
    refine t1.frame f23 (fun a ha e => ?_) ⟨hspec _ t1.table.ftag.1 t1.table.fvalid.1, hspec _ t1.table.ftag.2 t1.table.fvalid.2⟩
      (fun e he => ⟨hH e he, fun e' => ?_⟩)
    · subst e
      obtain ⟨-, h⟩ := t1.table.part_tag stringKeys_ok ha
      rcases htag with ht | ht <;> rw [ht] at h
      all_goals
        rcases h with h | h | h | h | h | h | ⟨k, h⟩
        iterate 6 cases h
        have h' : (s1.cell a).tag = .string := IsString.tag h
        rw [ht] at h'; cases h'
    · have := (t1.named e he).1.btag
      rw [e'] at this
      rcases htag with ht | ht <;> rw [ht] at this <;> cases this
  have hne : ¬ s.free = x := by have := hvx.2; omega
  have hstr3 : IsString s3 s.free name := by
    refine ⟨a2.toHasText.frame f23 hne (fun e => ?_), ?_⟩
    · have := a2.btag
      rw [e] at this
      rcases htag with ht | ht <;> rw [ht] at this <;> cases this
    · rw [f23.same _ a2.valid.2 hne]; exact a2.tag
  have hc3s : s3.cell s.free = s1.cell s.free := f23.same _ a2.valid.2 hne
  have hcdr3 : (s3.cell x).cdr = (s3.cell s.free).cdr := by rw [hc3, hc3s]
  have htext3 : HasText s3 x name :=
    ⟨f23.valid v1, by rw [hc3], by rw [hcdr3]; exact hstr3.bvalid, by rw [hcdr3]; exact hstr3.btag,
      by rw [hcdr3]; exact hstr3.bytes⟩
  have hfree3 : s3.free = s1.free := by rw [← hs3, ← hs2]; rfl
  have r3 : Room s3 4 := hr.step (a3.frame.trans f23) (by rw [hfree3]; omega)
  obtain ⟨s4, k1, k2, k3, k4⟩ := SymTable.store t3 hstr3 h0 htext3 (by rw [htag3]; exact htag.symm) r3
  refine ⟨s4, ?_, k2, ?_, by omega, by rw [k3.arena, f23.arena, a3.arena], by rw [k3.maxString, f23.maxString, a3.maxString],
    by have := a3.le; have := k3.le; omega, by rw [k3.symbols, f23.symbols, a3.symbols],
    by rw [k3.safety', f23.safety', a3.safety'], by rw [k3.stackSize', f23.stackSize', a3.stackSize']⟩
  · simp only [initSymbol, setTag_ok hvx, hself, ok_bind, a1, setCar_ok v1, hs2, St.cdr_ok (show s2.Valid s.free by rw [← hs2]; exact a2.valid),
      hstr2, setCdr_ok v2, hs3, k1]
  · intro a h1 h2
    rw [k3.same a (by have := hr.base; have := a3.le; omega)]
    · exact hfix3 a h1 h2
    · intro e
      have hbt := t3.table.btag _ (slot_lt (n := n) name t3.table.pos)
      have e' : (s3.cell (bucketsOf s3 s3.symbols)).cdr + (slot n name : Int) = a := e.symm
      rw [e', hfix3 a h1 h2] at hbt
      split at hbt <;> cases hbt

/-- Cells needed to give the names. -/
def nameCells (l : List (Tag × List Byte)) : Int := (l.map (fun e => stringCells e.2.length + 4)).sum

theorem nameCells_nonneg (l : List (Tag × List Byte)) : 0 ≤ nameCells l := by
  induction l with
  | nil => decide
  | cons e l ih => unfold nameCells at *; simp only [List.map_cons, List.sum_cons]; unfold stringCells at *; omega

theorem initSymbols__ok : ∀ (l : List (Tag × List Byte)) (s : St) (x : Int) (H : List (List Byte × Int)), SymTable s n H →
    Fixed s → c_nil ≤ x → x + l.length ≤ c_symbol_max → (∀ e ∈ H, e.2 < x) →
    (∀ (i : Nat) e, l[i]? = some e → e.1 = if x + i < 46 then .special else .symbol) →
    (∀ e ∈ l, 0 ≤ hashSum e.2 ∧ e.2.length ≤ s.maxString) → Room s (nameCells l) →
    ∃ s', initSymbols_ l s x = ok s' ∧ SymTable s' n (stored l x H) ∧ Fixed s' ∧ s'.free ≤ s.free + nameCells l ∧
      s'.arena = s.arena ∧ s.free ≤ s'.free ∧ s'.maxString = s.maxString ∧ s'.safety = s.safety ∧ s'.stackSize = s.stackSize
  | [], s, x, H, h, hfix, _, _, _, _, _, hr => ⟨s, rfl, h, hfix, by simp [nameCells], rfl, Int.le_refl _, rfl, rfl, rfl⟩
  | e :: l, s, x, H, h, hfix, h1, h2, hH, ht, h0, hr => by
    have hnc : nameCells (e :: l) = stringCells e.2.length + 4 + nameCells l := by simp [nameCells]
    have hnn := nameCells_nonneg l
    simp only [List.length_cons, Int.natCast_add, Int.cast_ofNat_Int] at h2
    obtain ⟨s1, a1, a2, a3, a4, a5, a6, a7, a8, a9, a10⟩ := initSymbol_ok (t := e.1) (name := e.2) h hfix h1 (by omega)
      (fun e' he => by have := hH e' he; omega) (by simpa using ht 0 e (by simp)) (h0 e (by simp)).1 (h0 e (by simp)).2
      (hr.mono (by omega))
    obtain ⟨s2, b1, b2, b3, b4, b5, b6, b7, b8, b9⟩ := initSymbols__ok l s1 (x + 1) ((e.2, x) :: H) a2 a3 (by omega) (by omega)
      (fun e' he => by
        rcases List.mem_cons.1 he with rfl | he
        · show x < x + 1; omega
        · have := hH e' he; omega)
      (fun i e' hi => by
        have := ht (i + 1) e' (by simpa using hi)
        rwa [show x + ((i + 1 : Nat) : Int) = x + 1 + (i : Int) by omega] at this)
      (fun e' he => by rw [a6]; exact h0 e' (List.mem_cons_of_mem _ he))
      ⟨by have := hr.base; omega, by have := hr.room; rw [a5]; omega⟩
    exact ⟨s2, by simp only [initSymbols_, a1, ok_bind, b1], b2, b3, by omega, by omega, by omega, by rw [b7, a6], by rw [b8, a9], by rw [b9, a10]⟩

/-! States with the same cells. -/

/-- The two states differ in registers only. -/
structure SameCells (s s' : St) : Prop where
  cell : s'.cell = s.cell
  free : s'.free = s.free

theorem SameCells.valid {s s' : St} (h : SameCells s s') {a : Int} (hv : s.Valid a) : s'.Valid a :=
  ⟨hv.1, by rw [h.free]; exact hv.2⟩

theorem Spec.HasText.same {s s' : St} {a : Int} {bs : List Byte} (h : HasText s a bs) (hc : SameCells s s') : HasText s' a bs := by
  refine ⟨hc.valid h.valid, ?_, ?_, ?_, ?_⟩ <;> rw [hc.cell]
  · exact h.length
  · exact hc.valid h.bvalid
  · exact h.btag
  · exact h.bytes

theorem Spec.ListOf.same {α : Type} {s s' : St} {R R' : Int → α → Prop} {p : Int} {l : List α} (h : ListOf s R p l)
    (hc : SameCells s s') (hR : ∀ a x, R a x → R' a x) : ListOf s' R' p l := by
  induction h with
  | nil => exact .nil
  | cons hne hv ht hx _ ih =>
    refine .cons hne (hc.valid hv) ?_ ?_ ?_ <;> rw [hc.cell]
    · exact ht
    · exact hR _ _ hx
    · exact ih

theorem Spec.IsTable.same {s s' : St} {t : Int} {H : List (List Byte × Int)} (h : IsTable stringKeys s t n H)
    (hc : SameCells s s') : IsTable stringKeys s' t n H := by
  have hb : bucketsOf s' t = bucketsOf s t := by unfold bucketsOf; rw [hc.cell]
  obtain ⟨b1, b2, b3, b4, b5, b6, b7, b8, b9, b10, b11, b12, b13, b14, b15, b16, b17, b18⟩ := h
  refine ⟨hc.valid b1, ?_, ?_, ⟨?_, ?_, ?_⟩, ?_, ?_, ?_, ?_, ?_, b10, b11, ?_, ?_, ?_, fun i hi => ?_, b16,
    ⟨hc.valid b17.1, hc.valid b17.2⟩, ?_⟩ <;> (try rw [hb]) <;> (try rw [hc.cell])
  · exact b2
  · exact b3
  · exact hc.valid b4.valid
  · exact b4.tag
  · exact b4.value
  · exact hc.valid b5
  · exact b6
  · exact hc.valid b7
  · exact b8
  · exact b9
  · exact b12
  · exact fun i hi => hc.valid (b13 i hi)
  · exact b14
  · have := b15 i hi
    unfold Bucket at this ⊢
    split <;> rename_i hn
    · rwa [if_pos hn] at this
    · rw [if_neg hn] at this
      refine this.same hc fun a x hx => ⟨hc.valid hx.1, ?_, ?_, ?_⟩ <;> rw [hc.cell]
      · exact hx.2.1
      · exact ⟨hx.2.2.1.1.same hc, by rw [hc.cell]; exact hx.2.2.1.2⟩
      · exact hx.2.2.2
  · exact b18

theorem Spec.SymTable.same {s s' : St} {H : List (List Byte × Int)} (h : SymTable s n H)
    (hc : SameCells s s') (hs : s'.symbols = s.symbols) : SymTable s' n H :=
  ⟨by rw [hs]; exact h.table.same hc, fun e he => ⟨(h.named e he).1.same hc, by rw [hc.cell]; exact (h.named e he).2⟩⟩

end Mes
