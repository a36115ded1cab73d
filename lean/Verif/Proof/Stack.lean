import Verif.Spec.Stack
import Verif.Proof.Array
import Verif.Proof.Symbol
/- Backtraces: the functions of stack.c. -/
namespace Mes
open Res Spec

/-- The predefined objects are there. -/
def Basics (s : St) : Prop := ∀ a, c_nil ≤ a → a < c_symbol_max → ValAt s a (.obj a)

theorem Basics.of_fixed {s : St} (h : Fixed s) {k : Int} (hr : Room s k) : Basics s := by
  intro a h1 h2
  have hb := hr.base
  refine ⟨rfl, ⟨by simp only [c_nil] at h1; omega, by omega⟩, ?_⟩
  rw [h a h1 h2]
  split <;> decide

theorem Basics.keep {s s' : St} (h : Basics s) (hk : Keeps s s') : Basics s' :=
  fun a h1 h2 => ⟨rfl, hk a (h a h1 h2).2.1 (h a h1 h2).2.2⟩

theorem Basics.ext {s s' : St} (h : Basics s) (hk : Ext s s') : Basics s' := h.keep hk.keeps_ext

theorem pair_val {s : St} {e x : Int} {w : Val} {us : List Val} (hr : Room s 1) (he : ValAt s e w) (hl : ListOf s (ValAt s) x us) :
    ∃ r s', cons s e x = ok (r, s') ∧ ListOf s' (ValAt s') r (w :: us) ∧ ValAt s' r (.obj r) ∧ Ext s s' ∧ s'.free = s.free + 1 := by
  have hx := push_ext s { tag := .pair, car := e, cdr := x }
  have hb := hr.base
  simp only [c_symbol_max] at hb
  refine ⟨s.free, _, cons_ok hr e x, ?_, ⟨rfl, hr.free_valid _, by rw [St.push_cell_free]; exact ⟨by simp, by simp, by simp⟩⟩, hx, by simp⟩
  refine .cons (by simp only [c_nil]; omega) (hr.free_valid _) (by simp) ?_ ?_
  · rw [St.push_cell_free]; exact he.ext hx
  · rw [St.push_cell_free]; exact hl.ext hx (fun a v h => h.ext hx)

/-- A type with one field name. -/
theorem makeType_ok {s : St} {fuel : Nat} {a b : Int} (hr : Room s 12) (hb : Basics s) (ha : ValAt s a (.obj a)) (h2 : ValAt s b (.obj b)) (hf : 2 < fuel) :
    ∃ r s', (do let (fields, s) ← cons s a c_nil
                let (fields, s) ← cons s fields c_nil
                let (fields, s) ← cons s b fields
                makeStruct s fuel c_symbol_record_type fields c_unspecified) = ok (r, s') ∧
      ValAt s' r (.obj r) ∧ Ext s s' ∧ s'.free ≤ s.free + 12 := by
  obtain ⟨r1, s1, a1, a2, a3, a4, a5⟩ := pair_val (hr.mono (by omega)) ha .nil
  obtain ⟨r2, s2, b1, b2, b3, b4, b5⟩ := pair_val (hr.step a4 (by omega)) a3 (.nil)
  have x2 := a4.trans b4
  obtain ⟨r3, s3, c1, c2, c3, c4, c5⟩ := pair_val (hr.step x2 (by omega)) (h2.ext x2) b2
  have x3 := x2.trans c4
  obtain ⟨r, s', d1, d2, d3, d4, d5, d6⟩ := makeStruct_ok (fuel := fuel) (ty := c_symbol_record_type) (pr := c_unspecified)
    (hr.step x3 (by simp only [List.length_cons, List.length_nil]; omega))
    ((hb.ext x3) c_symbol_record_type (by decide) (by decide)) ((hb.ext x3) c_unspecified (by decide) (by decide)) c2 hf
  refine ⟨r, s', by simp only [a1, b1, c1, d1, ok_bind], ⟨rfl, d2.valid, by rw [d2.tag]; decide⟩, x3.trans d3, ?_⟩
  simp only [List.length_cons, List.length_nil] at d6
  omega

section
variable {s : St} {n : Nat} {H : List (List Byte × Int)}

theorem Spec.SymTable.val (h : SymTable s n H) {bs : List Byte} {r : Int} (hl : lookup bs H = some r) : ValAt s r (.obj r) := by
  obtain ⟨h1, h2⟩ := h.named _ (lookup_mem hl)
  refine ⟨rfl, h1.valid, ?_⟩
  simp only at h2
  rcases h2 with e | e <;> rw [e] <;> decide

/-- A name: the symbol, and what changes. -/
theorem cstring_val {fuel : Nat} {bs : List Byte} (h : SymTable s n H) (hm : bs.length ≤ s.maxString) (h0 : 0 ≤ hashSum bs) (hf : H.length < fuel)
    (hr : Room s (stringCells bs.length + 6)) :
    ∃ r s' H', cstringToSymbol s fuel bs = ok (r, s') ∧ s'.free ≤ s.free + stringCells bs.length + 6 ∧ SymTable s' n H' ∧ ValAt s' r (.obj r) ∧
      Frame (· = bucketCell s s.symbols n bs) s s' ∧ Keeps s s' ∧ (H' = H ∨ H' = (bs, r) :: H) ∧
      (∀ q, lookup bs H = some q → q ≠ c_f → Ext s s' ∧ r = q) := by
  obtain ⟨s1, a1, a2, a3, a4⟩ := makeString_ok hm (hr.mono (by omega))
  have t1 := h.ext a3
  obtain ⟨r, s', g1, g2, g3⟩ := stringToSymbol_ok t1 a2 h0 hf (hr.step a3 (by omega))
  have he : cstringToSymbol s fuel bs = ok (r, s') := by simp only [cstringToSymbol, a1, ok_bind, g1]
  rcases g3 with ⟨k1, k2, k3, k4⟩ | ⟨k1, k2, k3, k4, k5⟩
  · have hx := a3.trans k4
    exact ⟨r, s', H, he, by omega, k3, k3.val k1, Ext.frame hx, hx.keeps_ext, .inl rfl, fun q hq _ => ⟨hx, by rw [hq] at k1; cases k1; rfl⟩⟩
  · have hb : bucketCell s1 s1.symbols n bs = bucketCell s s.symbols n bs := by
      rw [a3.symbols]; exact bucketCell_ext h.table a3 bs
    rw [hb] at k5
    have hx : Frame (· = bucketCell s s.symbols n bs) s s' := a3.frame.trans k5
    have hk : Keeps s s' := .of_frame hx (fun a _ e hs => by
      subst e
      have hbt := h.table.btag _ (slot_lt (n := n) bs h.table.pos)
      have h3 : (s.cell (bucketCell s s.symbols n bs)).tag = .ref := hbt
      rw [h3] at hs
      exact absurd rfl hs.2.2)
    refine ⟨r, s', _, he, by omega, k4, ?_, hx, hk, .inr rfl, fun q hq h2 => ?_⟩
    · refine ⟨rfl, (k4.named _ (List.mem_cons_self ..)).1.valid, by rw [k3]; decide⟩
    · rw [hq] at k1
      exact absurd k1 h2

/-- What a frame shows. -/
def shown (s : St) (i : Nat) : Int := if i = 0 then c_f else s.stack (s.stackSize - 5 * i + 4)

theorem makeFrame_ok {fuel i : Nat} {pr : Int} (h : SymTable s n H) (hb : Basics s) (hp : lookup framePrinterName H = some pr) (hpf : pr ≠ c_f)
    (hm : 13 ≤ s.maxString) (hf : H.length < fuel) (hf2 : 2 < fuel) (hr : Room s 35) (hi : 5 * (i : Int) ≤ s.stackSize)
    (hv : ValAt s (shown s i) (.obj (shown s i))) :
    ∃ f s', makeFrame s fuel i = ok (f, s') ∧ (∃ ty, IsArr .struct s' f [.obj ty, .obj pr, .obj c_symbol_frame, .obj (shown s i)]) ∧ Ext s s' ∧ s.free ≤ f ∧
      (s'.cell f).cdr = f + 1 ∧ s'.free ≤ s.free + 35 := by
  have hl : stringCells framePrinterName.length = 6 := by decide
  obtain ⟨ty, s1, a1, a2, a3, a4⟩ := makeType_ok (fuel := fuel) (hr.mono (by omega)) hb (hb c_symbol_procedure (by decide) (by decide))
    (hb c_symbol_frame (by decide) (by decide)) hf2
  obtain ⟨r2, s2, b1, b2, b3, b4, b5⟩ := pair_val (hr.step a3 (by omega)) (hv.ext a3) .nil
  have x2 := a3.trans b4
  obtain ⟨r3, s3, c1, c2, c3, c4, c5⟩ := pair_val (hr.step x2 (by omega)) ((hb.ext x2) c_symbol_frame (by decide) (by decide)) b2
  have x3 := x2.trans c4
  obtain ⟨q, s4, H', d1, d2, d3, d4, -, -, -, d8⟩ := cstring_val (fuel := fuel) (bs := framePrinterName) (h.ext x3) (by rw [x3.maxString]; exact hm) (by decide) hf
    (hr.step x3 (by omega))
  obtain ⟨x4, rfl⟩ := d8 pr hp hpf
  have x5 := x3.trans x4
  obtain ⟨f, s', e1, e2, e3, e4, e5, e6⟩ := makeStruct_ok (fuel := fuel) (ty := ty) (pr := q)
    (hr.step x5 (by simp only [List.length_cons, List.length_nil]; omega))
    (a2.ext ((b4.trans c4).trans x4)) d4 (c2.ext x4 (fun a v h => h.ext x4)) hf2
  refine ⟨f, s', ?_, ⟨ty, e2⟩, x5.trans e3, by have := x5.le; omega, e5, ?_⟩
  · have hst : s1.stack = s.stack := a3.stack
    have hsz : s1.stackSize = s.stackSize := a3.stackSize'
    have hproc : frameProcedure s1 i =
        ok (if i = 0 then 0 else shown s i) := by
      by_cases h0 : i = 0
      · subst h0; rfl
      · rw [if_neg h0, frameProcedure, if_pos (by omega), St.getStack, if_pos (by simp only [gcFrameSize]; omega), shown, if_neg h0, hst, hsz]
        simp only [gcFrameSize, Int.mul_comm]
    have hnull : (if (if i = 0 then 0 else shown s i) = 0 then c_f else (if i = 0 then 0 else shown s i)) = shown s i := by
      by_cases h0 : i = 0
      · subst h0; rfl
      · rw [if_neg h0, if_neg]
        have := hv.2.1.1
        omega
    rw [makeFrame, makeFrameType, a1]
    simp only [ok_bind, hproc, hnull, b1, c1, d1, e1]
  · simp only [List.length_cons, List.length_nil] at e6
    omega

/-- The loop: every entry of the vector becomes a frame. -/
theorem fillFrames_ok {fuel k : Nat} {pr v : Int} {sb : St} (h : SymTable sb n H) (hb : Basics sb) (hp : lookup framePrinterName H = some pr) (hpf : pr ≠ c_f)
    (hm : 13 ≤ sb.maxString) (hf : H.length < fuel) (hf2 : 2 < fuel) (hsz : 5 * (k : Int) ≤ sb.stackSize)
    (hv : ∀ i : Nat, i < k → ValAt sb (shown sb i) (.obj (shown sb i))) (hvb : sb.free ≤ v) :
    ∀ (m i : Nat) (s : St) (vs : List Val), i + m = k → Ext sb s → IsArr .vector s v vs → vs.length = k → (s.cell v).cdr = v + 1 → Room s (36 * m) →
      ∃ (s' : St) (fs : List Int), fillFrames fuel m s v i = ok s' ∧ Frame (Range (v + 1) k) s s' ∧ IsArr .vector s' v (vs.take i ++ fs.map .obj) ∧ fs.length = m ∧
        (∀ (j : Nat) f, fs[j]? = some f → FrameOf s' f (shown sb (i + j))) ∧ s'.free ≤ s.free + 36 * m
  | 0, i, s, vs, hk, hx, ha, hl, hc, hr => by
    refine ⟨s, [], rfl, Frame.refl .., ?_, rfl, by simp, by omega⟩
    rw [List.take_of_length_le (by omega)]
    simpa using ha
  | m + 1, i, s, vs, hk, hx, ha, hl, hc, hr => by
    have hsh : shown s i = shown sb i := by unfold shown; rw [hx.stack, hx.stackSize']
    obtain ⟨f, s1, a1, ⟨ty, a2⟩, a3, a4, a5, a6⟩ := makeFrame_ok (fuel := fuel) (i := i) (h.ext hx) (hb.ext hx) hp hpf (by rw [hx.maxString]; exact hm) hf hf2
      (hr.mono (by omega)) (by rw [hx.stackSize']; omega) (by rw [hsh]; exact (hv i (by omega)).ext hx)
    rw [hsh] at a2
    have hv1 := ha.ext a3
    have hc1 : (s1.cell v).cdr = v + 1 := by rw [a3.same v ha.valid.2 id]; exact hc
    have hent : ∀ j : Nat, j < k → s.Valid (v + 1 + j) ∧ ¬ Solid (s1.cell (v + 1 + j)).tag := fun j hj => by
      have e1 := ha.entry j (vs[j]'(by omega)) (List.getElem?_eq_getElem _)
      have e2 := hv1.entry j (vs[j]'(by omega)) (List.getElem?_eq_getElem _)
      rw [hc] at e1
      rw [hc1] at e2
      exact ⟨e1.valid, e2.not_solid⟩
    obtain ⟨hp1, hp2⟩ := hent i (by omega)
    obtain ⟨s2, b1, b2, b3, b4, b5⟩ := setEntry_ok (s := s1) (p := v + 1 + i) (e := f) (v := .obj f) (hr.step a3 (by omega)) (a3.valid hp1) hp2
      ⟨rfl, a2.valid, by rw [a2.tag]; decide⟩
    have hx2 : Ext sb s2 := (hx.trans a3).trans' b2 (fun a ha e => by omega)
    have hne : v ≠ v + 1 + (i : Int) := by omega
    have hc2 : s2.cell v = s1.cell v := b2.same v hv1.valid.2 hne
    have ha2 : IsArr .vector s2 v (vs.set i (.obj f)) := by
      refine ⟨b2.valid hv1.valid, by rw [hc2]; exact hv1.tag, by rw [hc2, List.length_set]; exact hv1.length, fun j w hj => ?_⟩
      rw [hc2, hc1]
      by_cases hij : j = i
      · subst hij
        rw [List.getElem?_set_self (by omega)] at hj
        cases hj
        exact b3
      · rw [List.getElem?_set_ne (by omega)] at hj
        have e2 := hv1.entry j w hj
        rw [hc1] at e2
        exact e2.keep b2.valid (b2.same _ e2.valid.2 (by omega)) b4
    have hr2 : Room s2 (36 * (m : Int)) := (hr.step a3 (l := 36 * m + 1) (by omega)).step b2 (by omega)
    obtain ⟨s', fs, c1, c2, c3, c4, c5, c6⟩ := fillFrames_ok h hb hp hpf hm hf hf2 hsz hv hvb m (i + 1) s2 _ (by omega) hx2 ha2 (by rw [List.length_set]; exact hl)
      (by rw [hc2]; exact hc1) hr2
    have hb12 : Frame (Range (v + 1) k) s1 s2 := b2.mono (fun a _ e => by subst e; unfold Range; omega)
    have h1e : Frame (Range (v + 1) k) s1 s' := hb12.trans c2
    have hlast : v + 1 + (k : Int) ≤ s.free := by
      have := (hent (k - 1) (by omega)).1.2
      omega
    have hkeep : Keeps s1 s' := .of_frame h1e (fun a _ e hs => by
      unfold Range at e
      have := (hent (a - (v + 1)).toNat (by omega)).2
      rw [show v + 1 + ((a - (v + 1)).toNat : Int) = a by omega] at this
      exact absurd hs this)
    refine ⟨s', f :: fs, ?_, (Ext.frame a3).trans h1e, ?_, by simp [c4], ?_, by omega⟩
    · rw [fillFrames, a1]
      simp only [ok_bind, vectorSet, St.rd_ok hv1.valid, assert_true hv1.tag, hv1.length, assert_true (show (i : Int) < vs.length by omega), hc1, b1]
      exact c1
    · have : vs.take i ++ List.map Val.obj (f :: fs) = (vs.set i (.obj f)).take (i + 1) ++ List.map Val.obj fs := by
        rw [List.take_succ, List.take_set_of_le (Nat.le_refl _), List.getElem?_set_self (by omega)]
        simp
      rw [this]
      exact c3
    · intro j g hj
      cases j with
      | zero =>
        simp at hj
        subst hj
        refine ⟨ty, pr, a2.keep (h1e.same f a2.valid.2 (by unfold Range; omega)) (fun _ => h1e.valid) (fun j hj => ?_) hkeep⟩
        refine h1e.same _ ((a2.entry j _ (List.getElem?_eq_getElem hj)).valid).2 ?_
        rw [a5]
        unfold Range
        omega
      | succ j =>
        have := c5 j g (by simpa using hj)
        rwa [show i + 1 + j = i + (j + 1) by omega] at this

theorem makeStack_ok {fuel k : Nat} {pr : Int} (h : SymTable s n H) (hfix : Fixed s) (hp : lookup framePrinterName H = some pr) (hpf : pr ≠ c_f)
    (hm : 13 ≤ s.maxString) (hf : H.length + 1 < fuel) (hf2 : 2 < fuel) (hs0 : 0 ≤ s.sp) (hsp : s.sp = s.stackSize - 5 * k)
    (hv : ∀ a ∈ calls s k, s.Valid a ∧ Solid (s.cell a).tag) (hr : Room s (38 * k + 40)) :
    ∃ x v fs s', makeStack s fuel = ok (x, s') ∧ StackOf s' x v fs ∧ fs.length = k ∧
      (∀ (i : Nat) f, fs[i]? = some f → ∃ p, (c_f :: calls s k)[i]? = some p ∧ FrameOf s' f p) ∧
      Frame (· = bucketCell s s.symbols n framesName) s s' ∧ Keeps s s' := by
  have hl : stringCells framesName.length = 5 := by decide
  have hb := Basics.of_fixed hfix hr
  obtain ⟨q, s1, H1, a1, a2, a3, a4, a5, a6, a7, -⟩ := cstring_val (fuel := fuel) (bs := framesName) h (Nat.le_trans (by decide) hm) (by decide) (by omega)
    (hr.mono (by omega))
  have hb1 := hb.keep a6
  obtain ⟨ty, s2, b1, b2, b3, b4⟩ := makeType_ok (fuel := fuel) (a := q) (b := c_symbol_stack) (hr.step a5 (by omega)) hb1 a4 (hb1 c_symbol_stack (by decide) (by decide)) hf2
  have f2 : Frame (· = bucketCell s s.symbols n framesName) s s2 := a5.trans (Ext.frame b3)
  have k2 : Keeps s s2 := fun a h1 h2 => b3.keeps_ext a (a6 a h1 h2).1 (a6 a h1 h2).2
  have hb2 := hb1.ext b3
  have h2 := a3.ext b3
  have hp2 : lookup framePrinterName H1 = some pr := by
    rcases a7 with rfl | rfl
    · exact hp
    · exact hp
  have hf1 : H1.length < fuel := by
    rcases a7 with rfl | rfl
    · omega
    · simpa using hf
  have hst : s2.stack = s.stack := f2.stack
  have hsz : s2.stackSize = s.stackSize := f2.stackSize'
  have hshown : ∀ i : Nat, i < k → (c_f :: calls s k)[i]? = some (shown s2 i) := fun i hi => by
    unfold shown
    rw [hst, hsz]
    cases i with
    | zero => rfl
    | succ i =>
      rw [List.getElem?_cons_succ, calls, List.getElem?_map, List.getElem?_range (by omega), if_neg (by omega)]
      exact congrArg some (congrArg s.stack (by omega))
  have hv2 : ∀ i : Nat, i < k → ValAt s2 (shown s2 i) (.obj (shown s2 i)) := fun i hi => by
    have := List.mem_of_getElem? (hshown i hi)
    rcases List.mem_cons.1 this with e | e
    · rw [e]; exact hb2 c_f (by decide) (by decide)
    · exact ⟨rfl, k2 _ (hv _ e).1 (hv _ e).2⟩
  obtain ⟨v, s3, c1, c2, c3, c4, c5, c6⟩ := makeVector_ok (k := k) (s := s2) (hr.step f2 (by omega)) (hb2 c_unspecified (by decide) (by decide))
  obtain ⟨s4, fs, d1, d2, d3, d4, d5, d6⟩ := fillFrames_ok (fuel := fuel) (k := k) h2 hb2 hp2 hpf (by rw [f2.maxString]; exact hm) hf1 hf2 (by omega) hv2 c4 k 0 s3 _
    (by omega) c3 c2 (by simp) c5 (hr.step (f2.trans (Ext.frame c3)) (by omega))
  have x4 : Ext s2 s4 := c3.trans' d2 (fun a ha e => by unfold Range at e; omega)
  have f4 : Frame (· = bucketCell s s.symbols n framesName) s s4 := f2.trans (Ext.frame x4)
  obtain ⟨r5, s5, e1, e2, e3, e4, e5⟩ := pair_val (s := s4) (e := v) (w := .obj v) (x := c_nil) (hr.step f4 (by omega))
    ⟨rfl, d3.valid, by rw [d3.tag]; decide⟩ .nil
  obtain ⟨r6, s6, g1, g2, g3, g4, g5⟩ := pair_val (s := s5) (e := c_symbol_stack) (hr.step (f4.trans (Ext.frame e4)) (by omega))
    ((hb2.ext (x4.trans e4)) c_symbol_stack (by decide) (by decide)) e2
  have x6 := (x4.trans e4).trans g4
  obtain ⟨x, s7, i1, i2, i3, i4, i5, i6⟩ := makeStruct_ok (fuel := fuel) (s := s6) (ty := ty) (pr := c_unspecified)
    (hr.step (f2.trans (Ext.frame x6)) (by simp only [List.length_cons, List.length_nil]; omega))
    (b2.ext x6) ((hb2.ext x6) c_unspecified (by decide) (by decide)) g2 hf2
  have x47 := (e4.trans g4).trans i3
  have f7 := f2.trans (Ext.frame (x6.trans i3))
  refine ⟨x, v, fs, s7, ?_, ⟨_, _, i2, ?_⟩, d4, fun i f hi => ⟨_, hshown i ?_, ?_⟩, f7, ?_⟩
  · have hsize : (s2.stackSize - s2.sp).tdiv gcFrameSize = k := by
      rw [hsz, f2.sp, hsp]
      simp only [gcFrameSize]
      rw [Int.tdiv_eq_ediv_of_nonneg (by omega)]
      omega
    have htype : makeStackType s fuel = ok (ty, s2) := by
      rw [makeStackType, a1]
      exact b1
    rw [makeStack, htype]
    simp only [ok_bind, hsize, c1, Int.toNat_natCast]
    rw [show (0 : Int) = ((0 : Nat) : Int) from rfl, d1]
    simp only [ok_bind, e1, g1, i1]
  · have := d3.ext x47
    simpa using this
  · rw [← d4]
    exact (List.getElem?_eq_some_iff.1 hi).1
  · obtain ⟨t, p, hfr⟩ := d5 i f hi
    rw [Nat.zero_add] at hfr
    exact ⟨t, p, hfr.ext x47⟩
  · intro a h1 h2
    have := k2 a h1 h2
    exact (x6.trans i3).keeps_ext a this.1 this.2

end

end Mes
