import Verif.Proof.Lists
import Verif.Spec.Text
namespace Mes
open Res Spec

variable {s s' : St} {P : Int → Prop}

theorem Spec.HasText.ext {x : Int} {bs : List Byte} (h : HasText s x bs) (hf : Ext s s') : HasText s' x bs := by
  have e := hf.same x h.valid.2 id
  have e2 := hf.same _ h.bvalid.2 id
  exact ⟨hf.valid h.valid, by rw [e]; exact h.length, by rw [e]; exact hf.valid h.bvalid,
    by rw [e, e2]; exact h.btag, by rw [e, e2]; exact h.bytes⟩

theorem Spec.HasText.frame {x : Int} {bs : List Byte} (h : HasText s x bs) (hf : Frame P s s') (hx : ¬ P x)
    (hb : ¬ P (s.cell x).cdr) : HasText s' x bs := by
  have e := hf.same x h.valid.2 hx
  have e2 := hf.same _ h.bvalid.2 hb
  exact ⟨hf.valid h.valid, by rw [e]; exact h.length, by rw [e]; exact hf.valid h.bvalid,
    by rw [e, e2]; exact h.btag, by rw [e, e2]; exact h.bytes⟩

theorem Spec.IsString.ext {x : Int} {bs : List Byte} (h : IsString s x bs) (hf : Ext s s') : IsString s' x bs :=
  ⟨h.toHasText.ext hf, by rw [hf.same x h.valid.2 id]; exact h.tag⟩

theorem Spec.HasText.inj {x : Int} {bs cs : List Byte} (h : HasText s x bs) (h' : HasText s x cs) : bs = cs := by
  have := h.bytes.symm.trans h'.bytes
  simpa using this

theorem makeBytes_ok {bs : List Byte} (h : Room s (bytesCells bs.length)) :
    ∃ s', makeBytes s bs = ok (s.free, s') ∧ Ext s s' ∧ s'.free = s.free + bytesCells bs.length ∧
      s'.Valid s.free ∧ s'.cell s.free = { tag := .bytes, car := bs.length, cdr := 0, bytes := bs } := by
  have hb := h.base; have hr := h.room
  simp only [c_symbol_max, g_cells] at hb hr
  have hpos : (1 : Int) ≤ bytesCells bs.length := by unfold bytesCells; omega
  have h1 : alloc s (bytesCells bs.length) = ok (s.free, { s with free := s.free + bytesCells bs.length }) := by
    simp only [alloc, g_cells]; rw [if_neg (by omega)]
  have hv : ({ s with free := s.free + bytesCells bs.length } : St).Valid s.free := ⟨by omega, by simp only; omega⟩
  have e1 : Ext s { s with free := s.free + bytesCells bs.length } := ⟨by simp only; omega, fun _ _ _ => rfl, rfl⟩
  refine ⟨_, ?_, e1.trans' (upd_frame _ s.free { tag := .bytes, car := bs.length, cdr := 0, bytes := bs })
    (fun a h1 h2 => by omega), rfl, hv, by simp⟩
  simp only [makeBytes, h1, ok_bind, St.put_ok _ hv]

theorem makeString_ok {bs : List Byte} (hm : bs.length ≤ s.maxString) (h : Room s (stringCells bs.length)) :
    ∃ s', makeString s bs = ok (s.free, s') ∧ IsString s' s.free bs ∧ Ext s s' ∧
      s'.free ≤ s.free + stringCells bs.length := by
  have hsz : 1 + bytesCells (bs ++ [0]).length ≤ stringCells bs.length := by
    simp only [bytesCells, stringCells, List.length_append, List.length_singleton]; omega
  have r1 : Room s 1 := h.mono (by unfold stringCells; omega)
  have e1 := push_ext s { tag := .string, car := bs.length, cdr := 0 }
  have r2 : Room (s.push { tag := .string, car := bs.length, cdr := 0 }) (bytesCells (bs ++ [0]).length) :=
    h.step e1 (by simp only [St.push_free]; omega)
  obtain ⟨s2, g1, g2, g3, g4, g5⟩ := makeBytes_ok r2
  simp only [St.push_free] at g1 g3 g4 g5
  have hv2 : s2.Valid s.free := g2.valid (r1.free_valid _)
  have hc2 : s2.cell s.free = { tag := .string, car := bs.length, cdr := 0 } := by
    rw [g2.same s.free (by simp; omega) id]; simp
  refine ⟨_, ?_, ?_, (e1.trans g2).trans' (upd_frame s2 s.free { s2.cell s.free with cdr := s.free + 1 })
    (fun a h1 h2 => by omega), by simp only [St.upd_free]; omega⟩
  · simp only [makeString, if_neg (by omega : ¬ s.maxString < bs.length), makeCell_ok r1, ok_bind, g1, St.setCdr,
      St.rd_ok hv2, St.put_ok _ hv2]
  · refine ⟨⟨hv2, ?_, ?_, ?_, ?_⟩, ?_⟩
    · simp [hc2]
    · simpa using g4
    · rw [St.upd_cell_same]
      simp only
      rw [St.upd_cell_ne _ (by omega), g5]
    · rw [St.upd_cell_same]
      simp only
      rw [St.upd_cell_ne _ (by omega), g5]
    · simp [hc2]

theorem listToCstringLoop_ok {fuel : Nat} {p : Int} {ns : List Int} (h : Chars s p ns) (hf : ns.length < fuel) :
    ∀ {acc : List Byte}, acc.length + ns.length ≤ s.maxString →
    listToCstringLoop s fuel acc p = ok ((ns.map toByte).reverse ++ acc) := by
  induction h generalizing fuel with
  | nil =>
    intro acc _
    obtain ⟨fuel, rfl⟩ : ∃ f, fuel = f + 1 := ⟨fuel - 1, by simp at hf; omega⟩
    simp [listToCstringLoop]
  | @cons p x xs hne hv ht hx _ ih =>
    intro acc hm
    simp only [List.length_cons] at hf hm
    obtain ⟨fuel, rfl⟩ : ∃ f, fuel = f + 1 := ⟨fuel - 1, by omega⟩
    simp only [listToCstringLoop, if_neg hne, if_neg (show ¬ s.maxString < acc.length by omega), carP, cdrP, St.rd_ok hv,
      ok_bind, ht, ne_eq, not_true_eq_false, if_false, St.cdr_ok (IsChar.valid hx), IsChar.value hx,
      ubUnless_true (show acc.length < s.maxString by omega)]
    rw [ih (by omega) (by simp only [List.length_cons]; omega)]
    simp

theorem listToCstring_ok {fuel : Nat} {p : Int} {ns : List Int} (h : Chars s p ns) (hf : ns.length < fuel)
    (hm : ns.length < s.maxString) : listToCstring s fuel p = ok (ns.map toByte) := by
  simp only [listToCstring, listToCstringLoop_ok h hf (acc := []) (by simp; omega), ok_bind]
  rw [ubUnless_true (by simpa using hm)]
  simp

/-- A list of `MAX_STRING` characters or more leaves the buffer. -/
theorem listToCstringLoop_ub {fuel : Nat} {p : Int} {ns : List Int} (h : Chars s p ns) (hf : ns.length < fuel) :
    ∀ {acc : List Byte}, acc.length ≤ s.maxString → s.maxString < acc.length + ns.length →
    listToCstringLoop s fuel acc p = ub := by
  induction h generalizing fuel with
  | nil => intro acc h1 h2; simp at h2; omega
  | @cons p x xs hne hv ht hx _ ih =>
    intro acc h1 h2
    simp only [List.length_cons] at hf h2
    obtain ⟨fuel, rfl⟩ : ∃ f, fuel = f + 1 := ⟨fuel - 1, by omega⟩
    simp only [listToCstringLoop, if_neg hne, if_neg (show ¬ s.maxString < acc.length by omega), carP, cdrP, St.rd_ok hv,
      ok_bind, ht, ne_eq, not_true_eq_false, if_false, St.cdr_ok (IsChar.valid hx), IsChar.value hx]
    by_cases hm : acc.length < s.maxString
    · rw [ubUnless_true hm]
      simp only [ok_bind]
      exact ih (by omega) (by simp only [List.length_cons]; omega) (by simp only [List.length_cons]; omega)
    · rw [ubUnless_false hm]; rfl

theorem toByte_code (b : Byte) : toByte (code b) = b := by
  have := b.toNat_lt
  unfold toByte code
  rw [show ((b.toNat : Int) % 256).toNat = b.toNat by omega]
  simp

theorem code_toByte {n : Int} (h0 : 0 ≤ n) (h1 : n < 256) : code (toByte n) = n := by
  unfold toByte code
  rw [UInt8.toNat_ofNat']
  omega

theorem map_code_toByte {ns : List Int} (h : ∀ n ∈ ns, 0 ≤ n ∧ n < 256) : (ns.map toByte).map code = ns := by
  induction ns with
  | nil => rfl
  | cons n ns ih =>
    simp only [List.map_cons, code_toByte (h n (by simp)).1 (h n (by simp)).2]
    rw [ih (fun m hm => h m (by simp [hm]))]

theorem map_toByte_code (bs : List Byte) : (bs.map code).map toByte = bs := by
  induction bs with
  | nil => rfl
  | cons b bs ih => simp only [List.map_cons, toByte_code, ih]

theorem sc_code (b : Byte) : (256 + sc b) % 256 = code b := by
  have := b.toNat_lt
  unfold sc code
  split <;> omega

theorem code_bound (b : Byte) : 0 ≤ code b ∧ code b < 256 := by
  have := b.toNat_lt; unfold code; omega

theorem Spec.Chars.ext {p : Int} {ns : List Int} (h : Chars s p ns) (hf : Ext s s') : Chars s' p ns :=
  ListOf.ext h hf (fun _ _ h => h.ext hf)

theorem bytesToListLoop_ok : ∀ {bs : List Byte} {s : St} {p : Int} {ns : List Int}, Chars s p ns →
    Room s (2 * bs.length) →
    ∃ r s', bytesToListLoop bs s p = ok (r, s') ∧ Chars s' r ((bs.reverse.map code) ++ ns) ∧ Ext s s' ∧
      s'.free = s.free + 2 * bs.length
  | [], s, p, ns, h, _ => ⟨p, s, rfl, by simpa using h, .refl .., by simp⟩
  | b :: bs, s, p, ns, h, hr => by
    simp only [List.length_cons] at hr
    have hc := code_bound b
    have r1 : Room s 1 := hr.mono (by omega)
    have e1 := push_ext s { tag := .char, car := 0, cdr := code b }
    have r2 : Room (s.push { tag := .char, car := 0, cdr := code b }) 1 := hr.step e1 (by simp; omega)
    have e2 := push_ext (s.push { tag := .char, car := 0, cdr := code b }) { tag := .pair, car := s.free, cdr := p }
    have hch : IsChar ((s.push { tag := .char, car := 0, cdr := code b }).push
        { tag := .pair, car := s.free, cdr := p }) s.free (code b) :=
      IsChar.ext ⟨r1.free_valid _, by simp, by simp⟩ e2
    have hbase := hr.base
    simp only [c_symbol_max] at hbase
    have hl : Chars ((s.push { tag := .char, car := 0, cdr := code b }).push
        { tag := .pair, car := s.free, cdr := p }) (s.free + 1) (code b :: ns) := by
      refine .cons (by simp only [c_nil]; omega) (r2.free_valid _) ?_ ?_ ?_
      · rw [show s.free + 1 = (s.push { tag := .char, car := 0, cdr := code b }).free from rfl, St.push_cell_free]
      · rw [show s.free + 1 = (s.push { tag := .char, car := 0, cdr := code b }).free from rfl, St.push_cell_free]
        exact hch
      · rw [show s.free + 1 = (s.push { tag := .char, car := 0, cdr := code b }).free from rfl, St.push_cell_free]
        exact Chars.ext h (e1.trans e2)
    obtain ⟨r, s', g1, g2, g3, g4⟩ := bytesToListLoop_ok (bs := bs) hl (hr.step (e1.trans e2) (by simp; omega))
    refine ⟨r, s', ?_, by simpa using g2, (e1.trans e2).trans g3, by simp only [St.push_free, List.length_cons] at g4 ⊢; omega⟩
    simp only [bytesToListLoop, sc_code, makeChar_ok r1, toInt32_id (show -2147483648 ≤ code b by omega) (by omega), ok_bind,
      cons_ok r2]
    exact g1

theorem bytesToList_ok {bs : List Byte} (hr : Room s (2 * bs.length)) :
    ∃ r s', bytesToList s bs = ok (r, s') ∧ Chars s' r (bs.map code) ∧ Ext s s' ∧ s'.free = s.free + 2 * bs.length := by
  obtain ⟨r, s', h1, h2, h3, h4⟩ := bytesToListLoop_ok (bs := bs.reverse) (s := s) (p := c_nil) (ns := []) .nil
    (by simpa using hr)
  exact ⟨r, s', h1, by simpa using h2, h3, by simpa using h4⟩

theorem textOf_ok {x : Int} {bs : List Byte} (h : HasText s x bs) : textOf s x = ok bs := by
  simp only [textOf, St.rd_ok h.valid, ok_bind, St.bytes_ok h.bvalid, h.bytes, h.length]
  rw [ubUnless_true ⟨by omega, by simp⟩]
  simp

theorem stringEqual_ok {x y : Int} {bs cs : List Byte} (hx : HasText s x bs) (hy : HasText s y cs)
    (ht : ((s.cell x).tag = .string ∧ (s.cell y).tag = .string) ∨ ((s.cell x).tag = .keyword ∨ (s.cell y).tag = .keyword)) :
    stringEqual s x y = ok (if bs = cs then c_t else c_f) := by
  have hlen : (s.cell x).car = (s.cell y).car ↔ bs.length = cs.length := by rw [hx.length, hy.length]; omega
  simp only [stringEqual, St.rd_ok hx.valid, St.rd_ok hy.valid, ok_bind, assert_true ht]
  by_cases h1 : x = y
  · subst h1; rw [if_pos rfl, if_pos (hx.inj hy)]
  rw [if_neg h1]
  by_cases h2 : (s.cell x).cdr = (s.cell y).cdr
  · rw [if_pos h2]
    have : bs ++ [0] = cs ++ [0] := by rw [← hx.bytes, ← hy.bytes, h2]
    rw [if_pos (by simpa using this)]
  rw [if_neg h2]
  by_cases h3 : (s.cell x).car = 0 ∧ (s.cell y).car = 0
  · rw [if_pos h3]
    have e1 : bs = [] := by have := h3.1; rw [hx.length] at this; exact List.eq_nil_of_length_eq_zero (by omega)
    have e2 : cs = [] := by have := h3.2; rw [hy.length] at this; exact List.eq_nil_of_length_eq_zero (by omega)
    rw [if_pos (by rw [e1, e2])]
  rw [if_neg h3]
  by_cases h4 : (s.cell x).car = (s.cell y).car
  · rw [if_pos h4]
    have hl := hlen.1 h4
    simp only [St.bytes_ok hx.bvalid, St.bytes_ok hy.bvalid, ok_bind, hx.bytes, hy.bytes, hx.length]
    rw [ubUnless_true ⟨by omega, by simp, by simp; omega⟩]
    simp only [ok_bind, Int.toNat_natCast, List.take_left]
    rw [hl, List.take_left]
    split <;> rfl
  · rw [if_neg h4, if_neg (fun e => h4 (hlen.2 (by rw [e])))]

theorem stringAppendLoop_ok {fuel : Nat} {p : Int} {xs : List (List Byte)} (h : ListOf s (IsString s) p xs)
    (hf : xs.length < fuel) : ∀ {acc : List Byte}, acc.length + xs.flatten.length < s.maxString →
    stringAppendLoop s fuel acc p = ok (acc ++ xs.flatten) := by
  induction h generalizing fuel with
  | nil =>
    intro acc _
    obtain ⟨fuel, rfl⟩ : ∃ f, fuel = f + 1 := ⟨fuel - 1, by simp at hf; omega⟩
    simp [stringAppendLoop]
  | @cons p x xs hne hv ht hx _ ih =>
    intro acc hm
    simp only [List.length_cons, List.flatten_cons, List.length_append] at hf hm
    obtain ⟨fuel, rfl⟩ : ∃ f, fuel = f + 1 := ⟨fuel - 1, by omega⟩
    simp only [stringAppendLoop, if_neg hne, St.rd_ok hv, ok_bind, St.rd_ok (IsString.toHasText hx).valid,
      assert_true (IsString.tag hx), textOf_ok (IsString.toHasText hx),
      ubUnless_true (show acc.length + x.length + 1 ≤ s.maxString by omega),
      if_neg (show ¬ s.maxString < acc.length + x.length by omega)]
    rw [ih (by omega) (by simp only [List.length_append]; omega)]
    simp

end Mes
