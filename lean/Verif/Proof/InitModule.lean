import Verif.Proof.Init
/-
The first module: `make_initial_module`.
-/
namespace Mes
open Res Spec

variable {E : Env} {s s' s'' : St} {w : In} {H H' H'' : List (List Byte × Int)} {bs : List Byte} {clear mes : Bool} {A B A' n n' : Nat}
  {l : List (List Byte × Value)} {f : Int → List Byte} {a t f0 b : Int} {W W' : Ghost} {σ : Store}

/-! ### New tables -/

/-- An empty hash table with `n` buckets, in cells from `f0` on. -/
structure NewTable (f0 : Int) (s : St) (t : Int) (n : Nat) : Prop where
  new : f0 ≤ t ∧ f0 ≤ (s.cell t).cdr ∧ f0 ≤ (s.cell (bucketsOf s t)).cdr
  valid : s.Valid t
  tag : (s.cell t).tag = .struct
  length : (s.cell t).car = 5
  size : IsNum s ((s.cell t).cdr + 3) n
  rvalid : s.Valid ((s.cell t).cdr + 4)
  rtag : (s.cell ((s.cell t).cdr + 4)).tag = .ref
  vvalid : s.Valid (bucketsOf s t)
  vtag : (s.cell (bucketsOf s t)).tag = .vector
  vlength : (s.cell (bucketsOf s t)).car = n
  bvalid : ∀ i : Nat, i < n → s.Valid ((s.cell (bucketsOf s t)).cdr + i)
  btag : ∀ i : Nat, i < n → (s.cell ((s.cell (bucketsOf s t)).cdr + i)).tag = .ref
  bcar : ∀ i : Nat, i < n → (s.cell ((s.cell (bucketsOf s t)).cdr + i)).car = c_unspecified
  apart : ∀ i : Nat, i < n → (s.cell (bucketsOf s t)).cdr + i ≠ (s.cell t).cdr + 4

theorem NewTable.of {α : Type} {K : Keys α} (h : IsTable K s t n []) (h' : f0 ≤ t ∧ f0 ≤ (s.cell t).cdr ∧ f0 ≤ (s.cell (bucketsOf s t)).cdr) : NewTable f0 s t n :=
  ⟨h', h.valid, h.tag, h.length, h.size, h.rvalid, h.rtag, h.vvalid, h.vtag, h.vlength, h.bvalid, h.btag, fun i hi => by
    have := h.bucket i hi
    simpa [Bucket] using this, h.apart⟩

theorem NewTable.keep (h : NewTable f0 s t n) (hle : s.free ≤ s'.free) (hs : ∀ a, f0 ≤ a → a < s.free → s'.cell a = s.cell a)
    (hv : s'.cell (bucketsOf s t) = s.cell (bucketsOf s t)) : NewTable f0 s' t n ∧ bucketsOf s' t = bucketsOf s t := by
  have v : ∀ a, s.Valid a → s'.Valid a := fun a ha => ⟨ha.1, Int.lt_of_lt_of_le ha.2 hle⟩
  have e1 := hs t h.new.1 h.valid.2
  have e2 := hs _ (by have := h.new.2.1; omega) h.rvalid.2
  have e3 := hs _ (by have := h.new.2.1; omega) h.size.valid.2
  have eb : bucketsOf s' t = bucketsOf s t := by unfold bucketsOf; rw [e1, e2]
  have e4 : ∀ i : Nat, i < n → s'.cell ((s.cell (bucketsOf s t)).cdr + i) = s.cell ((s.cell (bucketsOf s t)).cdr + i) := fun i hi =>
    hs _ (by have := h.new.2.2; omega) (h.bvalid i hi).2
  refine ⟨⟨?_, v _ h.valid, ?_, ?_, ⟨?_, ?_, ?_⟩, ?_, ?_, ?_, ?_, ?_, fun i hi => ?_, fun i hi => ?_, fun i hi => ?_, fun i hi => ?_⟩, eb⟩
  · rw [eb, e1, hv]; exact h.new
  · rw [e1]; exact h.tag
  · rw [e1]; exact h.length
  · rw [e1]; exact v _ h.size.valid
  · rw [e1, e3]; exact h.size.tag
  · rw [e1, e3]; exact h.size.value
  · rw [e1]; exact v _ h.rvalid
  · rw [e1, e2]; exact h.rtag
  · rw [eb]; exact v _ h.vvalid
  · rw [eb, hv]; exact h.vtag
  · rw [eb, hv]; exact h.vlength
  · rw [eb, hv]; exact v _ (h.bvalid i hi)
  · rw [eb, hv, e4 i hi]; exact h.btag i hi
  · rw [eb, hv, e4 i hi]; exact h.bcar i hi
  · rw [eb, hv, e1]; exact h.apart i hi

theorem NewTable.go (h : NewTable f0 s t n) (g : Go E s H s' H' A n') (ht : ∀ b, E.touch b → b < f0) : NewTable f0 s' t n ∧ bucketsOf s' t = bucketsOf s t ∧
    s'.cell (bucketsOf s t) = s.cell (bucketsOf s t) := by
  have hv : s'.cell (bucketsOf s t) = s.cell (bucketsOf s t) := g.kept _ h.vvalid.2 (by rw [h.vtag]; decide) (by rw [h.vtag]; decide)
  obtain ⟨h1, h2⟩ := h.keep g.le (fun a h1 h2 => g.same a h2 fun h3 => by have := ht a h3; omega) hv
  exact ⟨h1, h2, hv⟩

/-- The first ghost: no variables yet; the buckets of the symbol table and of the table of variables may change. -/
def firstGhost (E : Env) (f : Int → List Byte) (b : Int) (n : Nat) : Ghost :=
  { name := f, loc := fun _ => 0, count := 0, chg := fun a => E.touch a ∨ b ≤ a ∧ a < b + n }

theorem Go.laterTable (g : Go E s H s' H' A n') (hb : s.free ≤ b) : Later (bare E f) s (firstGhost E f b n) s' where
  le := g.le
  same := g.same
  tag := g.tag
  car := fun a ha ht _ => by rw [g.kept a ha (by simp [ht]) (by simp [ht])]
  count := Nat.le_refl _
  loc := fun _ _ => rfl
  chg := fun a ha h => h.resolve_right (by omega)
  still := fun _ _ h _ => .inl h
  name := rfl
  kept := fun _ _ h _ => h.elim
  src := fun _ _ h => h.elim
  glob := fun _ _ h => by cases h
  rest := fun _ _ h _ => h.elim
  cur := rfl

/-! ### The module -/

theorem obj_val {x : Int} (h : Reading E s w H bs clear) (hv : s.Valid x) (ht : (s.cell x).tag = .struct) : IsVal s (bare E f) mes x (.obj x) :=
  .obj hv (by rw [ht]; decide) fun e => by
    have := h.names.fixed c_undefined (by decide) (by decide)
    rw [← e, ht] at this
    split at this <;> cases this

theorem pushEnv_stage (h : Stage E s w H bs clear mes a l) (hr : Room s 1) (e : Int) :
    ∃ s1 s', cons s e s.r0 = ok (s.free, s1) ∧ s' = { s1 with r0 := s.free } ∧ Stage E s' w H bs clear mes a l ∧ Go E s H s' H 1 0 ∧
      s'.free = s.free + 1 ∧ s'.cell s.free = { tag := .pair, car := e, cdr := s.r0 } ∧ s'.Valid s.free := by
  have hx := push_ext s { tag := .pair, car := e, cdr := s.r0 }
  have hv := hr.free_valid { tag := .pair, car := e, cdr := s.r0 }
  have hc := cons_ok hr e s.r0
  have c1 : (s.push { tag := .pair, car := e, cdr := s.r0 }).cell s.free = { tag := .pair, car := e, cdr := s.r0 } := St.push_cell_free ..
  have f1 : (s.push { tag := .pair, car := e, cdr := s.r0 }).free = s.free + 1 := by simp
  generalize s.push { tag := .pair, car := e, cdr := s.r0 } = s1 at *
  obtain ⟨t1, g1⟩ := h.ext (A := 1) hx (by rw [f1]; simp)
  obtain ⟨t2, g2⟩ := t1.regs (s' := { s1 with r0 := s.free }) ⟨rfl, rfl⟩ rfl rfl rfl rfl rfl id
  exact ⟨s1, _, hc, rfl, t2, (g1.trans g2).weaken (by omega) (by omega), f1, c1, hv⟩

/-- The module is there, with an empty table of variables at `t`. -/
structure Founded (E : Env) (s : St) (w : In) (H : List (List Byte × Int)) (bs : List Byte) (clear mes : Bool) (a : Int) (l : List (List Byte × Value)) (f0 t : Int) : Prop where
  stage : Stage E s w H bs clear mes a l
  new : NewTable f0 s t 100
  touch : ∀ b, E.touch b → b < f0
  sym : (s.cell s.symbols).cdr + 4 < f0
  binds : ∀ f, Binds s (firstGhost E f (s.cell (bucketsOf s t)).cdr 100) mes H a l
  module : s.Valid s.m0 ∧ (s.cell s.m0).tag = .struct ∧ (s.cell s.m0).car = 6 ∧ s.Valid ((s.cell s.m0).cdr + 5) ∧
    (s.cell ((s.cell s.m0).cdr + 5)).tag = .ref ∧ (s.cell ((s.cell s.m0).cdr + 5)).car = t
  later : (s.cell (bucketsOf s t)).cdr + 100 ≤ (s.cell s.m0).cdr + 5
  env : s.Valid s.r0 ∧ (s.cell s.r0).tag = .pair ∧ (s.cell s.r0).car = (s.cell a).car ∧ s.Valid (s.cell s.r0).cdr ∧ (s.cell (s.cell s.r0).cdr).tag = .pair ∧
    (s.cell (s.cell s.r0).cdr).car = (s.cell (s.cell a).cdr).car ∧ (s.cell (s.cell s.r0).cdr).cdr = c_nil
  nil : s.r0 ≠ c_nil ∧ (s.cell s.r0).cdr ≠ c_nil

theorem Binds.head {e : List Byte × Value} (h : Binds s W mes H a (e :: l)) : FixedPair s W.chg a ∧ FixedPair s W.chg (s.cell a).car ∧ e.1 ≠ [35, 102] ∧
    lookup e.1 H = some (s.cell (s.cell a).car).car ∧ IsVal s W mes (s.cell (s.cell a).car).cdr e.2 ∧ Binds s W mes H (s.cell a).cdr l := by
  cases h with
  | cons h1 h2 h3 h4 h5 h6 => exact ⟨h1, h2, h3, h4, h5, h6⟩

theorem makeInitialModule_founded (h : Stage E s w H bs clear mes a l) (hm : 14 ≤ s.maxString) (hE : 5 ≤ E.k) (hk : H.length + 5 ≤ E.k) (hr : Room s 339) :
    ∃ m a' s' H' f0 t mt ht, (∀ more, makeInitialModule s E.k more a = (do let s ← defineAll more s' a'; ok (m, s))) ∧
      Founded E s' w H' bs clear mes a' ((nameOf c_symbol_hashq_table, .obj ht) :: (nameOf c_symbol_module, .obj mt) :: l) f0 t ∧ s'.m0 = m ∧
      Go E s H s' H' 339 5 := by
  obtain ⟨mt, s1, H1, a1, t1, g1, v1, d1⟩ := makeModuleType_stage h (by omega) (by omega) (by omega) (hr.mono (by omega))
  have n2 : Predefined c_symbol_module := by decide +kernel
  obtain ⟨p2, s2, a2, t2, g2⟩ := acons_stage t1 n2.1 (t1.pre n2.1 n2.2) (fun f => obj_val t1.rd v1.2.1 d1) (g1.room hr (by decide))
  have q2 := g1.trans g2
  obtain ⟨ht, s3, a3, v3, x3, f3, d3⟩ := makeHashqType_ok (fuel := E.k) (s := s2) (q2.room hr (by decide)) t2.rd.names.fixed (by omega)
  obtain ⟨t3, g3⟩ := t2.ext (A := 13) x3 f3
  have q3 := q2.trans g3
  have n4 : Predefined c_symbol_hashq_table := by decide +kernel
  obtain ⟨p4, s4, a4, t4, g4⟩ := acons_stage t3 n4.1 (t3.pre n4.1 n4.2) (fun f => obj_val t3.rd v3.2.1 d3) (q3.room hr (by decide))
  have q4 := q3.trans g4
  obtain ⟨x5, s5, H5, a5, t5, g5, -, -, v5⟩ := t4.intern (name := ascii ['b', 'o', 'o', 't']) (by decide) (by rw [q4.maxString]; exact Nat.le_trans (by decide) hm)
    (by have := q4.length; omega) (q4.room hr (by decide))
  have q5 := q4.trans g5
  obtain ⟨nm, s6, a6, t6, g6, -, v6⟩ := cons_stage (k := 0) t5 (q5.room hr (by decide)) (by decide) .nil v5
  have q6 := (q5.trans g6).weaken (A' := 76) (n' := 4) (by decide) (by decide)
  obtain ⟨t, s7, a7, tab, x7, f7, new⟩ := makeHashTable_ok (K := symbolKeys fun _ => []) (symbolKeys_ok _) (fuel := E.k) (m := 0) (n := 100) (s := s6) rfl (by decide) (by decide)
    (q6.room hr (by decide)) t6.rd.names.fixed (by omega)
  obtain ⟨t7, g7⟩ := t6.ext (A := 232) x7 (by simpa [Int.add_assoc] using f7)
  have q7 := q6.trans g7
  have tn : NewTable s6.free s7 t 100 := .of tab new
  have vt : ValAt s7 t (.obj t) := ⟨rfl, tn.valid, by rw [tn.tag]; decide⟩
  obtain ⟨p8, s8, a8, t8, g8, L8, -⟩ := cons_stage (k := 30) t7 (q7.room hr (by decide)) (by decide) .nil vt
  have q8 := q7.trans g8
  obtain ⟨p9, s9, a9, t9, g9, L9, -⟩ := cons_stage (e := c_nil) (k := 29) t8 (q8.room hr (by decide)) (by decide) L8
    (fixed_val t8.rd.names.fixed t8.rd.names.base (by decide) (by decide))
  have q9 := q8.trans g9
  obtain ⟨p10, s10, a10, t10, g10, L10, -⟩ := cons_stage (k := 28) t9 (q9.room hr (by decide)) (by decide) L9 (((v6.go g7).go g8).go g9)
  have q10 := q9.trans g10
  obtain ⟨p11, s11, a11, t11, g11, L11, -⟩ := cons_stage (e := c_symbol_module) (k := 27) t10 (q10.room hr (by decide)) (by decide) L10
    (fixed_val t10.rd.names.fixed t10.rd.names.base (by decide) (by decide))
  have q11 := q10.trans g11
  obtain ⟨x12, s12, H12, a12, t12, g12, -, -, v12⟩ := t11.intern (name := ascii ['m', 'o', 'd', 'u', 'l', 'e', '-', 'p', 'r', 'i', 'n', 't', 'e', 'r']) (by decide)
    (by rw [q11.maxString]; exact hm) (by have := q11.length; omega) (q11.room hr (by decide))
  have q12 := (q11.trans g12).weaken (A' := 324) (n' := 5) (by decide) (by decide)
  have r12 := q12.room (k' := 15) hr (by decide)
  obtain ⟨m, s13, a13, arr, x13, new13, cdr13, f13⟩ := makeStruct_ok (fuel := E.k) (s := s12) (q12.room hr (by simp)) (v1.go
    ((((((((((g2.trans g3).trans g4).trans g5).trans g6).trans g7).trans g8).trans g9).trans g10).trans g11).trans g12)) v12 (listOf_go L11 g12) (by simp; omega)
  obtain ⟨t13, g13⟩ := t12.ext (A := 13) x13 (by simpa [Int.add_assoc] using f13)
  have q13 := q12.trans g13
  -- the environment
  obtain ⟨t14, g14⟩ := t13.regs (s' := { s13 with r0 := c_nil }) ⟨rfl, rfl⟩ rfl rfl rfl rfl rfl id
  have q14 := q13.trans g14
  have gb := (t14.binds (fun _ => [])).head
  have gb2 := gb.2.2.2.2.2.head
  obtain ⟨s15, s16, a15, e15, t16, g16, f16, c16, w16⟩ := pushEnv_stage t14 (q14.room hr (by decide)) (({ s13 with r0 := c_nil } : St).cell (({ s13 with r0 := c_nil } : St).cell p4).cdr).car
  have q16 := q14.trans g16
  obtain ⟨s17, s18, a17, e17, t18, g18, f18, c18, w18⟩ := pushEnv_stage t16 (q16.room hr (by decide)) (s16.cell p4).car
  have q18 := q16.trans g18
  obtain ⟨t19, g19⟩ := t18.regs (s' := { s18 with m0 := m }) ⟨rfl, rfl⟩ rfl rfl rfl rfl rfl id
  have q19 := q18.trans g19
  have gb16 := (t16.binds (fun _ => [])).head
  refine ⟨m, p4, { s18 with m0 := m }, H12, s6.free, t, mt, ht, fun more => ?_, ?_, rfl, q19.weaken (by decide) (by decide)⟩
  · simp only [makeInitialModule, a1, a2, a3, a4, a5, a6, a7, a8, a9, a10, a11, a12, a13, ok_bind, St.cdr_ok gb.1.valid, St.car_ok gb2.1.valid, a15]
    have := St.car_ok gb16.1.valid
    rw [e15] at this a17
    simp only [this, ok_bind, a17]
    rw [e17, e15]
  · -- cells that stay
    have ht6 : ∀ b, E.touch b → b < s6.free := fun b hb => t6.rd.touch_lt hb
    have G7 := (((((((((g8.trans g9).trans g10).trans g11).trans g12).trans g13).trans g14).trans g16).trans g18).trans g19)
    obtain ⟨N1, N2, N3⟩ := tn.go G7 ht6
    have G13 := (((g14.trans g16).trans g18).trans g19)
    have l7 : s7.free ≤ s12.free := ((((g8.trans g9).trans g10).trans g11).trans g12).le
    have b99 := (tn.bvalid 99 (by decide)).2
    have i5 := arr.entry 5 _ rfl
    have hf6 : s6.free ≤ s12.free := Int.le_trans g7.le l7
    have em : ({ s18 with m0 := m } : St).cell m = s13.cell m := G13.kept m arr.valid.2 (by rw [arr.tag]; decide) (by rw [arr.tag]; decide)
    have e5 : ({ s18 with m0 := m } : St).cell ((s13.cell m).cdr + 5) = s13.cell ((s13.cell m).cdr + 5) :=
      G13.same _ i5.1.2 fun ht => by have := ht6 _ ht; rw [cdr13] at this; omega
    have G6 := g7.trans G7
    have esym : ({ s18 with m0 := m } : St).symbols = s6.symbols := G6.symbols
    have es : ({ s18 with m0 := m } : St).cell s6.symbols = s6.cell s6.symbols :=
      G6.kept _ t6.rd.sym.table.valid.2 (by rw [t6.rd.sym.table.tag]; decide) (by rw [t6.rd.sym.table.tag]; decide)
    have ehead := (t19.binds (fun _ => [])).head
    have ea : s18.cell p4 = s13.cell p4 := G13.kept _ gb.1.valid.2 (by rw [gb.1.tag]; decide) (by rw [gb.1.tag]; decide)
    have ea2 : s18.cell (s13.cell p4).cdr = s13.cell (s13.cell p4).cdr := G13.kept _ gb2.1.valid.2 (by rw [gb2.1.tag]; decide) (by rw [gb2.1.tag]; decide)
    have ea16 : s16.cell p4 = s13.cell p4 := (g14.trans g16).kept _ gb.1.valid.2 (by rw [gb.1.tag]; decide) (by rw [gb.1.tag]; decide)
    have hb13 := t13.rd.names.base
    simp only [c_symbol_max] at hb13
    have hf13 : ({ s13 with r0 := c_nil } : St).free = s13.free := rfl
    have er18 : s18.r0 = s16.free := by rw [e17]
    have er16 : s16.r0 = s13.free := by rw [e15]
    have ct16 : (s16.cell s13.free).tag = .pair := (congrArg Cell.tag c16 :)
    have c16' : s18.cell s13.free = { tag := .pair, car := (s13.cell (s13.cell p4).cdr).car, cdr := c_nil } := by
      have := g18.kept s13.free (by rw [f16, hf13]; omega) (by rw [ct16]; decide) (by rw [ct16]; decide)
      rw [this]; exact c16
    refine ⟨t19, N1, ht6, ?_, fun f => ?_, ?_, ?_, ?_, ?_⟩
    · rw [esym, es]
      exact t6.rd.sym.table.rvalid.2
    · rw [N2, N3]
      exact (t6.binds f).later (G6.laterTable tn.new.2.2) G6.grown
    · refine ⟨⟨arr.valid.1, Int.lt_of_lt_of_le arr.valid.2 G13.le⟩, ?_, ?_, ?_, ?_, ?_⟩ <;> dsimp only <;> rw [em]
      · exact arr.tag
      · exact arr.length
      · exact ⟨i5.1.1, Int.lt_of_lt_of_le i5.1.2 G13.le⟩
      · rw [e5]; exact i5.2.1
      · rw [e5]; exact i5.2.2.1
    · dsimp only
      rw [N2, N3, em, cdr13]
      omega
    · dsimp only
      rw [er18, c18, er16, c16', ea, ea16, ea2]
      exact ⟨w18, rfl, rfl, ⟨w16.1, Int.lt_of_lt_of_le w16.2 g18.le⟩, rfl, rfl, rfl⟩
    · dsimp only
      rw [er18, c18, er16]
      simp only [c_nil]
      omega

/-! ### The first store -/

/-- The name of each symbol. -/
noncomputable def textFor (H : List (List Byte × Int)) (x : Int) : List Byte :=
  open Classical in if h : ∃ name, lookup name H = some x then h.choose else []

theorem textFor_eq {name : List Byte} {x : Int} (h : SymTable s n H) (hx : lookup name H = some x) : textFor H x = name := by
  have hex : ∃ name, lookup name H = some x := ⟨name, hx⟩
  unfold textFor
  rw [dif_pos hex]
  exact ((h.named _ (lookup_mem hex.choose_spec)).1).inj ((h.named _ (lookup_mem hx)).1)

theorem Founded.chg_tag (h : Founded E s w H bs clear mes a l f0 t) {c : Int} (hc : (firstGhost E f (s.cell (bucketsOf s t)).cdr 100).chg c) :
    s.Valid c ∧ ((s.cell c).tag = .ref ∨ (s.cell c).tag = .port) := by
  rcases hc with hc | ⟨h1, h2⟩
  · exact ⟨h.stage.rd.touch_pos hc, h.stage.rd.touch_tag (h.stage.rd.touch_pos hc) hc⟩
  · obtain ⟨i, hi⟩ : ∃ i : Nat, c = (s.cell (bucketsOf s t)).cdr + i := ⟨(c - (s.cell (bucketsOf s t)).cdr).toNat, by omega⟩
    subst hi
    exact ⟨h.new.bvalid i (by omega), .inl (h.new.btag i (by omega))⟩

theorem Founded.unchg (h : Founded E s w H bs clear mes a l f0 t) {c : Int} (h1 : (s.cell c).tag ≠ .ref) (h2 : (s.cell c).tag ≠ .port) :
    ¬ (firstGhost E f (s.cell (bucketsOf s t)).cdr 100).chg c := fun hc => by
  rcases (h.chg_tag hc).2 with h | h
  · exact h1 h
  · exact h2 h

theorem Founded.world (h : Founded E s w H bs clear mes a l f0 t) :
    World s (firstGhost E f (s.cell (bucketsOf s t)).cdr 100) mes ⟨[], fun _ => none⟩ := by
  have nm := h.stage.rd.names
  obtain ⟨m1, m2, m3, m4, m5, m6⟩ := h.module
  have hnew := h.new
  have hbegin : Predefined c_symbol_begin := by decide +kernel
  have htext := (h.stage.rd.sym.named _ (lookup_mem (h.stage.pre hbegin.1 hbegin.2))).1
  have ht : ∀ c, f0 ≤ c → (∀ i : Nat, i < 100 → (s.cell (bucketsOf s t)).cdr + i ≠ c) → ¬ (firstGhost E f (s.cell (bucketsOf s t)).cdr 100).chg c := fun c h1 h2 hc => by
    rcases hc with hc | ⟨h3, h4⟩
    · have := h.touch c hc; omega
    · exact h2 (c - (s.cell (bucketsOf s t)).cdr).toNat (by omega) (by omega)
  refine ⟨nm.base, nm.fixed, ?_, rfl, fun c hc => (h.chg_tag hc).1.2, fun l hl => absurd hl (by simp [firstGhost]), fun l _ hl => absurd hl (by simp [firstGhost]),
    fun l hl => absurd hl (by simp [firstGhost]), fun l v hv => by simp at hv, ⟨m1, m2, by rw [m3]; decide, h.unchg (by rw [m2]; decide) (by rw [m2]; decide), m4, m5, ?_⟩, ⟨100, [], ?_, fun _ => rfl⟩,
    fun _ _ h => (by cases h), fun _ _ h => (by cases h), fun _ h => h.elim, fun l hl => absurd hl (by simp [firstGhost])⟩
  · exact htext.length
  · have := hnew.new
    have := h.later
    exact ht _ (by omega) fun i hi => by omega
  · rw [m6]
    refine ⟨hnew.valid, hnew.tag, hnew.length, h.unchg (by rw [hnew.tag]; decide) (by rw [hnew.tag]; decide), hnew.size,
      h.unchg (by rw [hnew.size.tag]; decide) (by rw [hnew.size.tag]; decide), hnew.rvalid, hnew.rtag, ht _ (by have := hnew.new; omega) hnew.apart, hnew.vvalid, hnew.vtag, hnew.vlength,
      h.unchg (by rw [hnew.vtag]; decide) (by rw [hnew.vtag]; decide), by decide, by decide, hnew.bvalid, hnew.btag, fun i hi => .inr ⟨by omega, by omega⟩, fun _ _ h => h,
      fun i hi => ⟨fun _ => hnew.bcar i hi, fun h => absurd rfl h⟩, by simp, by simp⟩

theorem Founded.key (h : Founded E s w H bs clear mes a l f0 t) {name : List Byte} {x : Int} (hx : lookup name H = some x) :
    IsKey s (firstGhost E (textFor H) (s.cell (bucketsOf s t)).cdr 100) x := by
  have hm := lookup_mem hx
  obtain ⟨h1, h2⟩ := h.stage.rd.sym.named _ hm
  have e := textFor_eq h.stage.rd.sym hx
  refine ⟨by show HasText s x (textFor H x); rw [e]; exact h1, h2, h.unchg ?_ ?_, h.unchg ?_ ?_, by show 0 ≤ hashSum (textFor H x); rw [e]; exact h.stage.rd.sym.table.ascii _ hm⟩
  · rcases h2 with h | h <;> simp only at h <;> rw [h] <;> decide
  · rcases h2 with h | h <;> simp only at h <;> rw [h] <;> decide
  · have := h1.btag; simp only at this; rw [this]; decide
  · have := h1.btag; simp only at this; rw [this]; decide

/-! ### The variables of the module -/

/-- The store after these definitions. -/
def defineEach (H : List (List Byte × Int)) : List (List Byte × Value) → Store → Store
  | [], σ => σ
  | e :: l, σ => defineEach H l ⟨σ.vals ++ [e.2], fun y => if y = (lookup e.1 H).getD 0 then some σ.vals.length else σ.globals y⟩

theorem defineAll_ok {c : Int} {m : Nat} : ∀ (l : List (List Byte × Value)) {s : St} {W : Ghost} {σ : Store} {a : Int} {more : Nat}, World s W mes σ → Binds s W mes H a l →
    (∀ name x, name ∈ l.map Prod.fst → lookup name H = some x → IsKey s W x) → (∀ x, W.glob x = none) → Room s (4 * l.length : Nat) → l.length < more →
    (s.cell (bucketsOf s (varTable s))).cdr = c ∧ (s.cell (bucketsOf s (varTable s))).car = (m : Int) →
    ∃ s' W', defineAll more s a = ok s' ∧ World s' W' mes (defineEach H l σ) ∧ Later W s W' s' ∧ Frame (fun a => c ≤ a ∧ a < c + m) s s' ∧
      s'.free ≤ s.free + (4 * l.length : Nat) ∧ (∀ a, W'.chg a → W.chg a ∨ s.free ≤ a ∧ (s'.cell a).tag = .pair) ∧ W'.src = W.src ∧
      (s'.cell (bucketsOf s' (varTable s'))).cdr = c ∧ (s'.cell (bucketsOf s' (varTable s'))).car = (m : Int)
  | [], s, W, σ, a, more, hw, hb, _, _, _, hm, hc => by
    cases hb
    obtain ⟨more, rfl⟩ : ∃ f, more = f + 1 := ⟨more - 1, by simp at hm; omega⟩
    obtain ⟨v, t⟩ : s.Valid c_nil ∧ (s.cell c_nil).tag = .special := World.fixed_cell hw (by decide) (by decide)
    refine ⟨s, W, ?_, hw, Later.refl _ _, Frame.refl _ _, by simp, fun _ h => .inl h, rfl, hc⟩
    simp only [defineAll, St.rd_ok v, ok_bind, t]
    rfl
  | e :: l, s, W, σ, a, more, hw, hb, hk, hg, hr, hm, hc => by
    obtain ⟨b1, b2, b3, b4, b5, b6⟩ := hb.head
    obtain ⟨more, rfl⟩ : ∃ f, more = f + 1 := ⟨more - 1, by simp at hm; omega⟩
    simp only [List.length_cons] at hr hm ⊢
    obtain ⟨s1, p, d1, d2, d3, d4, b, d5, d6, i, d7, d8⟩ := moduleDefine_add hw (hk _ _ (by simp) b4) (hg _) b5 (hr.mono (by omega))
    rw [show (s.cell ((s.cell s.m0).cdr + 5)).car = varTable s from rfl, hc.2] at d7
    rw [show (s.cell ((s.cell s.m0).cdr + 5)).car = varTable s from rfl, hc.1] at d8
    have fr : Frame (fun a => c ≤ a ∧ a < c + m) s s1 := d5.mono (fun x _ hx => by rw [hx]; omega)
    obtain ⟨m1, m2, m3, m4, m5, m6, m7⟩ := hw.module
    obtain ⟨n0, H0, g0, -⟩ := hw.table
    have em := d2.keep m1 m4
    have er := d2.keep m5 m7
    have hm0 : s1.m0 = s.m0 := (congrArg St.m0 d5.rest :)
    have ev : varTable s1 = varTable s := by unfold varTable; rw [hm0, em, er]
    have eb : bucketsOf s1 (varTable s1) = bucketsOf s (varTable s) := by
      rw [ev]; unfold bucketsOf varTable
      rw [d2.keep g0.valid g0.fixed, d2.keep g0.rvalid g0.rfixed]
    have ec := d2.keep g0.vvalid g0.vfixed
    obtain ⟨s2, W2, e1, e2, e3, e4, e5, e6, e7, e8⟩ := defineAll_ok l (more := more) d4 (b6.later d2 (Grown.refl H))
      (fun name x hn hx => (hk name x (by simp [hn]) hx).later d2) hg ⟨Int.le_trans hr.base d2.le, by have := hr.room; rw [fr.consts.arena]; omega⟩ (by omega)
      (by rw [eb]; rw [show s1.cell (bucketsOf s (varTable s)) = _ from ec]; exact hc)
    refine ⟨s2, W2, ?_, ?_, d2.trans e3, fr.trans e4, by omega, fun x hx => ?_, e7.trans rfl, e8⟩
    · have e9 := b1.cell_eq d2
      simp only [defineAll, St.rd_ok b1.valid, ok_bind, b1.tag, if_true, St.rd_ok b2.valid, d1, St.cdr_ok (d2.valid b1.valid), e9, e1]
    · show World s2 W2 mes (defineEach H l _)
      rw [b4]; exact e2
    · rcases e6 x hx with h | ⟨h1, h2⟩
      · rcases h with h | rfl
        · exact .inl h
        · have hp := d4.pair W.count (by show W.count < W.count + 1; omega)
          have : (W.add x).loc W.count = x := if_neg (by omega)
          rw [this] at hp
          by_cases hx' : x < s.free
          · left
            exact d2.chg x hx' (.inr rfl)
          · exact .inr ⟨by omega, by rw [e3.tag x hp.1.2]; exact hp.2⟩
      · exact .inr ⟨Int.le_trans d2.le h1, h2⟩

theorem reading_keep {P : Int → Prop} (h : Reading E s w H bs clear) (hfile : E.p = 0 ∧ FileInput w bs clear) (hf : Frame P s s')
    (hp : ∀ a, s.Valid a → P a → (s.cell a).tag = .ref ∧ ¬ E.touch a ∧ a ≠ (s.cell s.symbols).cdr + 4) : Reading E s' w H bs clear := by
  have hx : ∀ a, s.Valid a → (s.cell a).tag ≠ .ref → ¬ P a := fun a hv ht hP => ht (hp a hv hP).1
  have tab := h.sym.table
  have p1 : ¬ P s.symbols := hx _ tab.valid (by rw [tab.tag]; decide)
  have p3 : ¬ P (bucketsOf s s.symbols) := hx _ tab.vvalid (by rw [tab.vtag]; decide)
  have p2 : ¬ P ((s.cell s.symbols).cdr + 4) := fun hP => (hp _ tab.rvalid hP).2.2 rfl
  have pfix : ∀ a, c_nil ≤ a → a < c_symbol_max → ¬ P a := fun a h1 h2 => by
    have hb := h.names.base
    refine hx a ⟨by simp only [c_nil] at h1; omega, by omega⟩ ?_
    rw [h.names.fixed a h1 h2]; split <;> decide
  refine ⟨h.sym.frame hf (fun a ha => ?_) ?_ (fun e he => ?_), ?_, .file hfile.1 hfile.2, h.names.keep hf (fun a hv hP => .inl (hp a hv hP).1) (Grown.refl H), by
    rw [hf.maxString]; exact h.mx⟩
  · rcases ha with rfl | rfl | rfl | rfl | ⟨i, hi, rfl | ⟨hpr, q, hq, ha⟩⟩
    · exact p1
    · exact hx _ tab.size.valid (by rw [tab.size.tag]; decide)
    · exact p2
    · exact p3
    · intro hP
      refine (hp _ (tab.bvalid i hi) hP).2.1 (.inr ?_)
      rw [h.buckets]; omega
    · have hb := tab.bucket i hi
      unfold Bucket at hb
      split at hb
      · rw [hb, tab.ftag.2] at hpr; cases hpr
      · obtain ⟨q1, q2, kv, q3, q4, q5, q6⟩ := hb.cells hq
        have q5' : IsString s (s.cell (s.cell q).car).car kv.1 := q5
        rcases ha with rfl | rfl | rfl | rfl
        · exact hx _ q1 (by rw [q2]; decide)
        · exact hx _ q3 (by rw [q4]; decide)
        · exact hx _ q5'.valid (by rw [q5'.tag]; decide)
        · exact hx _ q5'.bvalid (by rw [q5'.btag]; decide)
  · rw [hf.same _ tab.fvalid.1.2 (pfix _ (by decide) (by decide)), hf.same _ tab.fvalid.2.2 (pfix _ (by decide) (by decide))]
    exact tab.ftag
  · obtain ⟨h1, h2⟩ := h.sym.named e he
    exact ⟨hx _ h1.valid (by rcases h2 with h | h <;> rw [h] <;> decide), hx _ h1.bvalid (by rw [h1.btag]; decide)⟩
  · have e1 := hf.same _ tab.valid.2 p1
    have e2 := hf.same _ tab.rvalid.2 p2
    have e3 : bucketsOf s' s'.symbols = bucketsOf s s.symbols := by rw [hf.symbols]; unfold bucketsOf; rw [e1, e2]
    rw [e3, hf.same _ tab.vvalid.2 p3]
    exact h.buckets

/-! ### Before the program is read -/

theorem startNames_fixed : ∀ e ∈ startNames, c_nil ≤ e.2 ∧ e.2 < c_symbol_max := by decide +kernel

/-- Every symbol that is not predefined is of type symbol. -/
def NewSymbols (s : St) (H : List (List Byte × Int)) : Prop := ∀ name x, lookup name H = some x → c_nil ≤ x ∧ x < c_symbol_max ∨ (s.cell x).tag = .symbol

theorem Go.symbols_new (g : Go E s startNames s' H A n) : NewSymbols s' H := fun name x hx => by
  rcases g.newer name x hx with h | ⟨-, -, h⟩
  · exact .inl (startNames_fixed _ (lookup_mem h))
  · exact .inr h

theorem finish {l0 : List (List Byte × Value)} {mt ht : Value} {more fuel : Nat} (h : Founded E s w H bs clear mes a ((nameOf c_symbol_hashq_table, ht) :: (nameOf c_symbol_module, mt) :: l0) f0 t)
    (hs : NewSymbols s H) (hf : 4 ≤ fuel) (hm : l0.length + 2 < more) (hr : Room s (4 * l0.length + 240 : Nat))
    (hforms : ∀ x ∈ formNames, (defineEach H ((nameOf c_symbol_hashq_table, ht) :: (nameOf c_symbol_module, mt) :: l0) ⟨[], fun _ => none⟩).globals x = none) :
    ∃ s1 m s2 W, defineAll more s a = ok s1 ∧ s1.m0 = s.m0 ∧ makeHashTable s1 fuel 0 = ok (m, s2) ∧ Reading E { s2 with macros := m } w H bs clear ∧
      BootPre E mes (defineEach H ((nameOf c_symbol_hashq_table, ht) :: (nameOf c_symbol_module, mt) :: l0) ⟨[], fun _ => none⟩) W 100 startScope H { s2 with macros := m } ∧
      s2.free ≤ s.free + (4 * l0.length + 240 : Nat) ∧ Frame (fun b => b ≥ f0 ∧ (s.cell b).tag = .ref) s s2 := by
  have hw := h.world (f := textFor H)
  obtain ⟨mo1, mo2, mo3, mo4, mo5, mo6⟩ := h.module
  have hvt : varTable s = t := mo6
  obtain ⟨s1, W, a1, a2, a3, a4, a5, a6, a7, a8, a9⟩ := defineAll_ok (c := (s.cell (bucketsOf s t)).cdr) (m := 100) _ hw (h.binds (textFor H)) (fun name x _ hx => h.key hx) (fun _ => rfl)
    (hr.mono (by simp only [List.length_cons]; omega)) (by simpa using hm) (by rw [hvt]; exact ⟨rfl, h.new.vlength⟩)
  simp only [List.length_cons] at a5
  have hm0 : s1.m0 = s.m0 := (congrArg St.m0 a4.rest :)
  have hsafe : ∀ b, s.Valid b → ((s.cell (bucketsOf s t)).cdr ≤ b ∧ b < (s.cell (bucketsOf s t)).cdr + (100 : Nat)) → (s.cell b).tag = .ref ∧ ¬ E.touch b ∧ b ≠ (s.cell s.symbols).cdr + 4 := by
    intro b _ hb
    have hnew := h.new.new
    refine ⟨?_, fun ht => by have := h.touch b ht; omega, fun e => by have := h.sym; omega⟩
    have := h.new.btag (b - (s.cell (bucketsOf s t)).cdr).toNat (by omega)
    rw [show (s.cell (bucketsOf s t)).cdr + ((b - (s.cell (bucketsOf s t)).cdr).toNat : Int) = b by omega] at this
    exact this
  have rd1 := reading_keep h.stage.rd h.stage.file a4 hsafe
  have r1 : Room s1 232 := ⟨Int.le_trans hr.base a3.le, by have := hr.room; rw [a4.consts.arena]; omega⟩
  obtain ⟨m, s2, b1, b2, b3, b4, b5⟩ := makeHashTable_ok (K := symbolKeys fun _ => []) (symbolKeys_ok _) (fuel := fuel) (m := 0) (n := 100) (s := s1) rfl (by decide) (by decide)
    r1 rd1.names.fixed hf
  have rd2 := rd1.ext b3
  have new2 : NewTable s1.free s2 m 100 := .of b2 b5
  have g : Grow s1 { s2 with macros := m } := ⟨b3.le, fun c hc => b3.same c hc id⟩
  have lat := a3.trans (g.later W)
  have hcell : ∀ c, s2.cell c = ({ s2 with macros := m } : St).cell c := fun _ => rfl
  have hw2 := a2.grow g (show s2.m0 = s1.m0 from (congrArg St.m0 b3.rest :))
  have hbelow : ∀ c, s1.free ≤ c → ¬ W.chg c := fun c hc h => by have := a2.below c h; omega
  have key : ∀ {name x}, lookup name H = some x → IsKey { s2 with macros := m } W x := fun hx => (h.key hx).later lat
  have tags : ∀ {name x}, lookup name H = some x → 46 ≤ x → (s2.cell x).tag = .symbol := fun {name x} hx h46 => by
    have hv := (h.stage.rd.sym.named _ (lookup_mem hx)).1.valid
    have := lat.tag x hv.2
    rw [show (s2.cell x).tag = _ from this]
    rcases hs name x hx with ⟨h1, h2⟩ | h1
    · rw [h.stage.rd.names.fixed x h1 h2, if_neg (by omega)]
    · exact h1
  have name' : ∀ {name x}, lookup name H = some x → 46 ≤ x → IsName { s2 with macros := m } W x := fun hx h46 =>
    have k := key hx
    ⟨k.text, tags hx h46, k.fixed, k.bfixed, k.ascii⟩
  have pre : ∀ {x}, Predefined x → lookup (nameOf x) H = some x := fun hx => h.stage.pre hx.1 hx.2
  have named : ∀ {x}, Predefined x → HasText { s2 with macros := m } x (nameOf x) := fun {x} hx =>
    (rd2.sym.named _ (lookup_mem (pre hx))).1.same ⟨rfl, rfl⟩
  have hchg : ∀ c, W.chg c → s2.Valid c ∧ (s2.cell c).tag ∈ [Tag.pair, .ref, .port] := fun c hc => by
    have hlt := a2.below c hc
    have e : (s2.cell c).tag = (s1.cell c).tag := by rw [b3.same c hlt id]
    rcases a6 c hc with h1 | ⟨h1, h2⟩
    · obtain ⟨v, ht⟩ := h.chg_tag h1
      refine ⟨lat.valid v, ?_⟩
      rw [e, a3.tag c v.2]
      rcases ht with ht | ht <;> rw [ht] <;> decide
    · refine ⟨⟨by have := hw.base; simp only [c_symbol_max] at this; omega, Int.lt_of_lt_of_le hlt b3.le⟩, ?_⟩
      rw [e, h2]; decide
  have unchg : ∀ c, (s2.cell c).tag ∉ [Tag.pair, .ref, .port] → ¬ W.chg c := fun c h1 h2 => h1 (hchg c h2).2
  -- the environment
  have hb := (h.binds (textFor H)).head
  have hb2 := hb.2.2.2.2.2.head
  obtain ⟨v1, v2, v3, v4, v5, v6, v7⟩ := h.env
  have keepPair : ∀ c, s.Valid c → (s.cell c).tag = .pair → s2.cell c = s.cell c := fun c hv ht => by
    have e1 : s1.cell c = s.cell c := a4.same c hv.2 fun hP => by have := (hsafe c hv hP).1; rw [ht] at this; cases this
    rw [b3.same c (Int.lt_of_lt_of_le hv.2 a3.le) id, e1]
  have unPair : ∀ c, s.Valid c → (s.cell c).tag = .pair → ¬ W.chg c := fun c hv ht hc => by
    rcases a6 c hc with h1 | ⟨h1, -⟩
    · exact h.unchg (by rw [ht]; decide) (by rw [ht]; decide) h1
    · have := hv.2; omega
  have er0 : ({ s2 with macros := m } : St).r0 = s.r0 := by
    have e1 : s1.r0 = s.r0 := (congrArg St.r0 a4.rest :)
    have e2 : s2.r0 = s1.r0 := (congrArg St.r0 b3.rest :)
    exact e2.trans e1
  have k1 := keepPair _ v1 v2
  have k2 := keepPair _ v4 v5
  have k3 := keepPair _ hb.2.1.valid hb.2.1.tag
  have k4 := keepPair _ hb2.2.1.valid hb2.2.1.tag
  have q1 : (s.cell (s.cell a).car).car = c_symbol_hashq_table := by
    have := (hb.2.2.2.1).symm.trans (pre (x := c_symbol_hashq_table) (by decide +kernel))
    simpa using this
  have q2 : (s.cell (s.cell (s.cell a).cdr).car).car = c_symbol_module := by
    have := (hb2.2.2.2.1).symm.trans (pre (x := c_symbol_module) (by decide +kernel))
    simpa using this
  have hsrc : ∀ c, ¬ W.src c := fun c hc => by rw [a7] at hc; exact hc
  have henv : ∀ x, startScope x → Assq { s2 with macros := m } W x ({ s2 with macros := m } : St).r0 none := fun x hx => by
    rw [er0]
    have k1' : ({ s2 with macros := m } : St).cell s.r0 = s.cell s.r0 := k1
    have k2' : ({ s2 with macros := m } : St).cell (s.cell s.r0).cdr = s.cell (s.cell s.r0).cdr := k2
    have k3' : ({ s2 with macros := m } : St).cell (s.cell a).car = s.cell (s.cell a).car := k3
    have k4' : ({ s2 with macros := m } : St).cell (s.cell (s.cell a).cdr).car = s.cell (s.cell (s.cell a).cdr).car := k4
    refine .next ⟨h.nil.1, lat.valid v1, by rw [k1']; exact v2, unPair _ v1 v2⟩ ?_ ?_ (hsrc _) ?_ ?_
    · rw [k1', v3]; exact lat.valid hb.2.1.valid
    · rw [k1', v3, k3']; exact hb.2.1.tag
    · rw [k1', v3, k3', q1]; exact fun e => hx.2.2.2 e.symm
    · rw [k1']
      refine .next ⟨h.nil.2, lat.valid v4, by rw [k2']; exact v5, unPair _ v4 v5⟩ ?_ ?_ (hsrc _) ?_ ?_
      · rw [k2', v6]; exact lat.valid hb2.2.1.valid
      · rw [k2', v6, k4']; exact hb2.2.1.tag
      · rw [k2', v6, k4', q2]; exact fun e => hx.2.2.1 e.symm
      · rw [k2', v7]; exact .nil
  have hvars : (s2.cell (bucketsOf s2 (varTable s2))).cdr = (s.cell (bucketsOf s t)).cdr ∧ (s2.cell (bucketsOf s2 (varTable s2))).car = 100 := by
    obtain ⟨n0, H0, g0, -⟩ := a2.table
    obtain ⟨w1, w2, w3, w4, w5, w6, w7⟩ := a2.module
    have e0 : s2.m0 = s1.m0 := (congrArg St.m0 b3.rest :)
    have ev : varTable s2 = varTable s1 := by unfold varTable; rw [e0, b3.same _ w1.2 id, b3.same _ w5.2 id]
    have eb : bucketsOf s2 (varTable s2) = bucketsOf s1 (varTable s1) := by
      rw [ev]; unfold bucketsOf varTable
      rw [b3.same _ g0.valid.2 id, b3.same _ g0.rvalid.2 id]
    have ec := b3.same _ g0.vvalid.2 id
    rw [eb, show s2.cell (bucketsOf s1 (varTable s1)) = _ from ec]
    exact ⟨a8, a9⟩
  refine ⟨s1, m, s2, W, a1, hm0, b1, ?_, ⟨hw2, ?_, fun c hc => (hchg c hc).2, hsrc, ?_, ?_, ?_, fun name x hx hn => name' hx hn.1, henv, ?_, ?_, ?_, ?_, ?_⟩, by omega, ?_⟩
  · exact ⟨rd2.sym.same ⟨rfl, rfl⟩ rfl, rd2.buckets, .file h.stage.file.1 h.stage.file.2,
      ⟨rd2.names.fixed, rd2.names.base, rd2.names.fls.same ⟨rfl, rfl⟩, rd2.names.dot.same ⟨rfl, rfl⟩, rd2.names.quotes⟩, rd2.mx⟩
  · exact ⟨rd2.names.fixed, named (x := c_nil) (by decide +kernel), named (x := c_t) (by decide +kernel), rd2.names.fls.same ⟨rfl, rfl⟩, named (x := c_circular) (by decide +kernel)⟩
  · intro c hc; rw [a3.cur] at hc; exact hc
  · exact fun c hc => a3.still c (h.stage.rd.touch_lt hc) (.inl hc) (fun h => h)
  · intro i hi ht
    have : ({ s2 with macros := m } : St).cell (bucketsOf { s2 with macros := m } (varTable { s2 with macros := m })) = s2.cell (bucketsOf s2 (varTable s2)) := rfl
    rw [this, hvars.1] at ht
    have := h.touch _ ht
    have := h.new.new
    omega
  · unfold startScope; decide
  · exact fun x hx => ⟨by revert x; unfold startScope; decide, hforms x hx⟩
  · intro x hx
    have : Predefined x ∧ 46 ≤ x := by revert x; decide +kernel
    exact name' (pre this.1) this.2
  · exact ⟨new2.valid, new2.tag, new2.length, hbelow _ new2.new.1, ⟨new2.size.valid, new2.size.tag, new2.size.value⟩, unchg _ (by rw [new2.size.tag]; decide), new2.rvalid, new2.rtag,
      hbelow _ (by have := new2.new; dsimp only; omega), new2.vvalid, new2.vtag, new2.vlength, unchg _ (by have := new2.vtag; rw [show ({ s2 with macros := m } : St).macros = m from rfl]; rw [show bucketsOf { s2 with macros := m } m = bucketsOf s2 m from rfl, this]; decide), by decide, by decide⟩
  · intro i hi
    exact ⟨new2.bvalid i hi, new2.btag i hi, hbelow _ (by have := new2.new; show s1.free ≤ (s2.cell (bucketsOf s2 m)).cdr + i; omega), .inl (new2.bcar i hi)⟩
  · exact (a4.mono fun b hb hP => ⟨by have := h.new.new; omega, (hsafe b ⟨by have := (h.new.bvalid 0 (by decide)).1; omega, hb⟩ hP).1⟩).trans b3.frame

end Mes
