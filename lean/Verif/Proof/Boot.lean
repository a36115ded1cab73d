import Verif.Proof.Source
import Verif.Proof.Program
import Verif.Model.Main
/-
Reading a program while the memory holds a store.
-/
namespace Mes
open Res Spec

variable {s s' : St} {W W' : Ghost} {mes : Bool} {σ : Store} {N : Idents}

/-! ### More names -/

/-- Other names, for cells that are not allocated yet. -/
def Spec.Ghost.rename (W : Ghost) (f : Int → List Byte) : Ghost := { W with name := f }

/-- The names of all cells that are allocated are the same. -/
def Renames (s : St) (W : Ghost) (f : Int → List Byte) : Prop := ∀ a, s.Valid a → f a = W.name a

variable {f : Int → List Byte}

theorem Spec.IsName.rename {x : Int} (h : IsName s W x) (hf : Renames s W f) : IsName s (W.rename f) x :=
  have e : (W.rename f).name x = W.name x := hf x h.text.valid
  ⟨by rw [e]; exact h.text, h.tag, h.fixed, h.bfixed, by rw [e]; exact h.ascii⟩
theorem Spec.IsGlobal.rename {c x : Int} (h : IsGlobal s W N c x) : IsGlobal s (W.rename f) N c x := ⟨h.valid, h.tag, h.fixed, h.free, h.loc⟩
theorem Spec.IsTarget.rename {c x : Int} (h : IsTarget s W N c x) (hf : Renames s W f) : IsTarget s (W.rename f) N c x := by
  cases h with
  | name hi hn => exact .name (hi.rename hf) hn
  | global h => exact .global h.rename

mutual
theorem Spec.IsCode.rename {N : Idents} {c : Int} {e : Expr} (hf : Renames s W f) : IsCode s W mes N c e → IsCode s (W.rename f) mes N c e
  | .const h ht hm => .const h ht hm
  | .quote hc hh h1 hd => .quote hc hh h1 hd
  | .var hx hn hr => .var (hx.rename hf) hn hr
  | .global h => .global h.rename
  | .ite hc hh h1 e0 h2 e1 h3 e2 => .ite hc hh h1 (e0.rename hf) h2 (e1.rename hf) h3 (e2.rename hf)
  | .ifOnly hc hh h1 e0 h2 e1 h3 => .ifOnly hc hh h1 (e0.rename hf) h2 (e1.rename hf) h3
  | .lam hc hh h1 h hb hn => .lam hc hh h1 h (hb.rename hf) hn
  | .app hc hh hg ha hs => .app hc hh (hg.rename hf) (ha.rename hf) hs
  | .begin hc hh hs hn => .begin hc hh (hs.rename hf) hn
  | .set hc hh h1 hx h2 he => .set hc hh h1 (hx.rename hf) h2 (he.rename hf)
theorem Spec.IsSeq.rename {N : Idents} {p : Int} {es : List Expr} (hf : Renames s W f) : IsSeq s W mes N p es → IsSeq s (W.rename f) mes N p es
  | .nil => .nil
  | .cons hp he hl h => .cons hp (he.rename hf) hl (h.rename hf)
end

theorem Spec.Assq.rename {x r : Int} {o : Option Int} (h : Assq s W x r o) : Assq s (W.rename f) x r o := by
  induction h with
  | nil => exact .nil
  | here hr hv ht hs hx => exact .here hr hv ht hs hx
  | next hr hv ht hs hx _ ih => exact .next hr hv ht hs hx ih

theorem Spec.IsEnv.rename {r : Int} {ρ : Locals} (h : IsEnv s W N r ρ) : IsEnv s (W.rename f) N r ρ :=
  fun x hx => ⟨(h x hx).1.rename, (h x hx).2⟩

theorem Spec.IsVal.rename {a : Int} {v : Value} (hf : Renames s W f) (h : IsVal s W mes a v) : IsVal s (W.rename f) mes a v := by
  induction h with
  | int h hm => exact .int h hm
  | char h hm => exact .char h hm
  | pair hp _ _ hx hy => exact .pair hp hx hy
  | obj hv ht hu => exact .obj hv ht hu
  | prim h => exact .prim h
  | clo hv ht hm h0 h1 h2 hρ h3 h hb hn hN hfree => exact .clo hv ht hm h0 h1 h2 hρ.rename h3 h (hb.rename hf) hn hN hfree

theorem Spec.Globals.rename {t : Int} {n : Nat} {H : List (Int × Int)} (h : Globals s W t n H) (hf : Renames s W f) : Globals s (W.rename f) t n H := by
  have e : ∀ e ∈ H, (W.rename f).name e.1 = W.name e.1 := fun e he => hf _ (h.entry e he).2.2.2.2.1
  refine ⟨h.valid, h.tag, h.length, h.fixed, h.size, h.sfixed, h.rvalid, h.rtag, h.rfixed, h.vvalid, h.vtag, h.vlength, h.vfixed, h.pos,
      h.small, h.bvalid, h.btag, h.bmut, h.bsrc, fun i hi => ?_, h.entry, fun e' he => by rw [e e' he]; exact h.ascii e' he⟩
  have : H.filter (fun e => slot n ((W.rename f).name e.1) = i) = H.filter (fun e => slot n (W.name e.1) = i) :=
    List.filter_congr fun e' he => by rw [e e' he]
  rw [this]
  exact h.bucket i hi

theorem Spec.World.rename (hw : World s W mes σ) (hf : Renames s W f) : World s (W.rename f) mes σ := by
  obtain ⟨n, H, h, h'⟩ := hw.table
  exact ⟨hw.base, hw.tags, hw.begin, hw.count, hw.below, hw.chg, hw.inj, hw.pair, fun l v hv => (hw.holds l v hv).rename hf, hw.module,
    ⟨n, H, h.rename hf, h'⟩, hw.global, hw.glob, hw.source, hw.lsrc⟩

/-! ### The memory after reading -/

variable {E : Env} {w w' : In} {H H' : List (List Byte × Int)} {bs bs' : List Byte} {clear clear' : Bool} {A B l n : Nat} {M : Int → Prop} {L : List Int}

/-- The name of the symbol at an address, after reading. -/
def newName (s : St) (W : Ghost) (H' : List (List Byte × Int)) (a : Int) : List Byte :=
  if a < s.free then W.name a else ((H'.find? fun e => e.2 = a).map (·.1)).getD []

/-- What the addresses stand for, after reading: there are new names, and the program consists of the pairs `L`. -/
def Spec.Ghost.read (W : Ghost) (s : St) (H' : List (List Byte × Int)) (L : List Int) : Ghost :=
  { W with name := newName s W H', chg := fun a => W.chg a ∨ a ∈ L, src := fun a => a ∈ L }

theorem newName_old : Renames s W (newName s W H') := fun a ha => by rw [newName, if_pos ha.2]

theorem newName_new (h : SymTable s' E.n H') {a : Int} {name : List Byte} (ha : s.free ≤ a) (hl : lookup name H' = some a) : newName s W H' a = name := by
  rw [newName, if_neg (by omega)]
  have hm := lookup_mem hl
  cases hf : H'.find? fun e => e.2 = a with
  | none => simpa using List.find?_eq_none.1 hf _ hm
  | some e =>
    have h1 := List.mem_of_find?_eq_some hf
    have h2 : e.2 = a := by simpa using List.find?_some hf
    have t1 := (h.named e h1).1
    rw [h2] at t1
    exact t1.inj (h.named _ hm).1

theorem Run.tag_eq (h : Run E s H s' w' H' bs clear A B l) (h0 : Reading E s w H bs' clear') {a : Int} (ha : a < s.free) :
    (s'.cell a).tag = (s.cell a).tag := by
  by_cases ht : E.touch a
  · have hv : s.Valid a := by
      refine ⟨?_, ha⟩
      rcases ht with ⟨-, h1⟩ | ⟨h1, h2⟩
      · omega
      · have := h0.sym.table.bvalid (a - E.b).toNat (by omega)
        rw [h0.buckets, show E.b + ((a - E.b).toNat : Int) = a by omega] at this
        exact this.1
    have hv' := h.frame.valid hv
    rcases ht with ⟨rfl, -⟩ | ⟨h1, h2⟩
    · rw [h0.input.portTag hv, h.rd.input.portTag hv']
    · have e1 := h0.sym.table.btag (a - E.b).toNat (by omega)
      have e2 := h.rd.sym.table.btag (a - E.b).toNat (by omega)
      rw [h0.buckets, show E.b + ((a - E.b).toNat : Int) = a by omega] at e1
      rw [h.rd.buckets, show E.b + ((a - E.b).toNat : Int) = a by omega] at e2
      rw [e1, e2]
  · rw [h.frame.same a ha ht]

theorem Spec.BootPre.later (hb : BootPre E mes σ W n M H s) (h : Run E s H s' w' H' bs clear A B l) (h0 : Reading E s w H bs' clear')
    (hL : ∀ a ∈ L, s.free ≤ a) : Later (W.rename (newName s W H')) s (W.read s H' L) s' where
  le := h.frame.le
  same := fun a ha hc => h.frame.same a ha fun ht => hc (hb.touch a ht)
  tag := fun a ha => h.tag_eq h0 ha
  car := fun a ha ht _ => by
    rw [h.frame.same a ha fun hc => ?_]
    by_cases hv : 0 < a
    · have := h0.touch_tag ⟨by omega, ha⟩ hc
      rw [ht] at this
      simp at this
    · rcases hc with ⟨-, h1⟩ | ⟨h1, h2⟩
      · exact hv h1
      · have := h0.sym.table.bvalid (a - E.b).toNat (by omega)
        rw [h0.buckets, show E.b + ((a - E.b).toNat : Int) = a by omega] at this
        have := this.1
        omega
  count := Nat.le_refl _
  loc := fun _ _ => rfl
  chg := fun a ha hc => hc.resolve_right fun hm => by have := hL a hm; omega
  still := fun a _ hc _ => .inl hc
  name := rfl
  kept := fun a ha hs _ => by have := hL a hs; omega
  src := fun a ha hs => by have := hL a hs; omega
  glob := fun _ _ h => h
  rest := fun a _ hs _ => absurd hs (hb.src a)
  cur := rfl

theorem Run.untouched (h : Run E s H s' w' H' bs clear A B l) (h0 : Reading E s w H bs' clear') {a : Int}
    (hv : s.Valid a) (ht : (s.cell a).tag = .pair) : s'.cell a = s.cell a :=
  h.frame.same a hv.2 fun hc => by
    have := h0.touch_tag hv hc
    rw [ht] at this
    simp at this

theorem Spec.BootPre.worldRead (hb : BootPre E mes σ W n M H s) (h : Run E s H s' w' H' bs clear A B l) (h0 : Reading E s w H bs' clear')
    (hL : ∀ a ∈ L, s.free ≤ a ∧ a < s'.free) : World s' (W.read s H' L) mes σ := by
  have hl := hb.later h h0 fun a ha => (hL a ha).1
  have hw := hb.world.rename (newName_old (H' := H'))
  obtain ⟨m1, m2, m3, m4, m5, m6, m7⟩ := hw.module
  have e1 := hl.keep m1 m4
  have e2 := hl.keep m5 m7
  have hm : s'.m0 = s.m0 := h.frame.consts.m0
  refine ⟨Int.le_trans hw.base h.frame.le, hw.tags.later hw.base hl, ?_, hw.count, ?_,
    fun l hl => .inl (hw.chg l hl), hw.inj, ?_, ?_, ?_, ?_, hw.global, hw.glob, fun a h => .inr h, ?_⟩
  · rw [hl.same _ (by have := hw.base; simp only [c_symbol_max, c_symbol_begin] at *; omega) (hb.heads c_symbol_begin (by decide)).fixed]; exact hw.begin
  · intro a ha
    rcases ha with ha | ha
    · exact Int.lt_of_lt_of_le (hw.below a ha) h.frame.le
    · exact (hL a ha).2
  · intro l hlt
    obtain ⟨h1, h2⟩ := hw.pair l hlt
    exact ⟨h.frame.valid h1, (hl.tag _ h1.2).trans h2⟩
  · intro l v hv
    have hlt : l < W.count := by rw [hb.world.count]; exact (List.getElem?_eq_some_iff.1 hv).1
    obtain ⟨h1, h2⟩ := hw.pair l hlt
    have := h.untouched h0 h1 h2
    show IsVal s' _ mes (s'.cell (W.loc l)).cdr v
    rw [show s'.cell (W.loc l) = s.cell (W.loc l) from this]
    exact (hw.holds l v hv).later hl
  · rw [hm, e1, e2]
    exact ⟨hl.valid m1, m2, m3, hl.fixed m1 m4, hl.valid m5, m6, hl.fixed m5 m7⟩
  · obtain ⟨n', K, g1, g2⟩ := hw.table
    refine ⟨n', K, ?_, g2⟩
    rw [hm, e1, e2]
    refine g1.later hl (fun i hi => h.frame.same _ (g1.bvalid i hi).2 (hb.vars i ?_))
    unfold varTable
    rw [g1.vlength]
    omega
  · intro l hlt hm
    have h1 := (hL _ hm).1
    have h2 := (hw.pair l hlt).1.2
    exact absurd (show W.loc l < s.free from h2) (by have : s.free ≤ W.loc l := h1; omega)

theorem Spec.BootPre.readPre (hb : BootPre E mes σ W n M H s) (h : Run E s H s' w' H' bs clear A B l) (h0 : Reading E s w H bs' clear')
    (hL : Cells s' L s.free s'.free) : ReadPre s' H' M (W.read s H' L) := by
  have hl := hb.later h h0 fun a ha => (hL.range a ha).1
  have hbase := hb.world.base
  have chg : ∀ a, (W.read s H' L).chg a → (s'.cell a).tag ∈ [Tag.pair, .ref, .port] := fun a ha => by
    rcases ha with ha | ha
    · rw [h.tag_eq h0 (hb.world.below a ha)]; exact hb.chg a ha
    · rw [hL.pair a ha]; decide
  have special : ∀ a, c_nil ≤ a → a < 46 → ¬ (W.read s H' L).chg a := fun a h1 h2 hc => by
    have := chg a hc
    rw [h.rd.names.fixed a h1 (by simp only [c_symbol_max]; omega), if_pos h2] at this
    exact absurd this (by decide)
  refine ⟨fun name a hn ha => ?_, special _ (by decide) (by decide), special _ (by decide) (by decide), special _ (by decide) (by decide)⟩
  rcases h.newer name a hn with hn' | ⟨h1, h2⟩
  · exact ((hb.names name a hn' ha).rename newName_old).later hl
  · have hmem := lookup_mem hn
    have ht := (h.rd.sym.named _ hmem).1
    have e : (W.read s H' L).name a = name := newName_new h.rd.sym h1 hn
    refine ⟨by rw [e]; exact ht, h2, fun hc => ?_, fun hc => ?_, by rw [e]; exact h.rd.sym.table.ascii _ hmem⟩
    · have := chg a hc
      rw [h2] at this
      exact absurd this (by decide)
    · have := chg _ hc
      have hbt : (s'.cell (s'.cell a).cdr).tag = .bytes := ht.btag
      rw [hbt] at this
      exact absurd this (by decide)

/-! ### From the text to the program -/

/-- The state in which `main` calls `eval_apply`, after the program at `x` was read. -/
def St.atMain (s : St) (x : Int) : St :=
  let s1 := ({ s with r2 := x }.push { tag := .pair, car := c_symbol_program, cdr := x }).push { tag := .pair, car := s.free, cdr := s.r0 }
  { ({ s1 with r0 := s.free + 1 }).pushed x c_unspecified (s.free + 1) c_unspecified with r3 := c_vm_begin_expand }

theorem atMain_free (s : St) (x : Int) : (s.atMain x).free = s.free + 2 := by
  show s.free + 1 + 1 = s.free + 2; omega

theorem atMain_cell (s : St) (x : Int) : (s.atMain x).cell s.free = { tag := .pair, car := c_symbol_program, cdr := x } ∧
    (s.atMain x).cell (s.free + 1) = { tag := .pair, car := s.free, cdr := s.r0 } := by
  refine ⟨?_, ?_⟩
  · show (if s.free = s.free + 1 then _ else if s.free = s.free then _ else _) = _
    rw [if_neg (by omega), if_pos rfl]
  · show (if s.free + 1 = s.free + 1 then _ else _) = _
    rw [if_pos rfl]

theorem atMain_grow (s : St) (x : Int) : Grow s (s.atMain x) := by
  refine ⟨by rw [atMain_free]; omega, fun a ha => ?_⟩
  show (if a = s.free + 1 then _ else if a = s.free then _ else s.cell a) = _
  rw [if_neg (by omega), if_neg (by omega)]

theorem mainRead_ok {k fuel more : Nat} {x : Int} (h : readAll k fuel more s w = ok (x, s', w')) (hr : Room s' 2) (h1 : 5 ≤ s'.sp) (h2 : s'.sp ≤ s'.stackSize) :
    mainRead k fuel more s w = ok (s'.atMain x, { w' with stdin := 0 }) := by
  have r1 : Room { s' with r2 := x } 1 := ⟨hr.base, by have := hr.room; show s'.free + 1 - g_cells ≤ s'.arena; omega⟩
  have r2 : Room ({ s' with r2 := x }.push { tag := .pair, car := c_symbol_program, cdr := x }) 1 :=
    ⟨by have := hr.base; show c_symbol_max ≤ s'.free + 1; omega, by have := hr.room; show s'.free + 1 + 1 - g_cells ≤ s'.arena; omega⟩
  simp only [mainRead, readBoot, h, ok_bind, acons, cons_ok r1, cons_ok r2]
  rw [pushCc_ok (by exact h1) (by exact h2)]
  rfl

variable {ν : List Byte → Int} {ds : List Datum} {t : List Byte} {fs : List Toplevel} {fuel more k d : Nat}

theorem mainRead_read (hm : 45 ≤ E.mx) (hp : Program E.mx ds t) (hn : ∀ d ∈ ds, d ≠ .nil)
    (hb : BootPre E mes σ W n M H s) (h : Reading E s w H t clear) (hr : BootRoom E s t.length k d) (hf : 2 * t.length + 2 ≤ fuel)
    (hk : H.length + t.length < E.k) (hd : ds.length < more) :
    ∃ x s' w' H', readAll E.k fuel more s w = ok (x, s', w') ∧ Reading E s' w' H' [] false ∧ Grown H H' ∧ Newer s H s' H' ∧ Den s' H' E.touch x (.list ds) ∧
    ∃ s1 w1, mainRead E.k fuel more s w = ok (s1, w1) ∧
      ∀ ν fs, Naming ν → MeansProgram ν mes M ds fs → (∀ name, (Datum.list ds).Uses name → lookup name H' = some (ν name)) →
        Ready s1 k d ∧ ∃ W' L, AtProgram s1 W' mes n ⟨M, fun _ => True⟩ σ fs L ∧ L.Nodup := by
  have hu : 0 ≤ E.u := by have := E.u_pos; omega
  have hbase := hb.world.base
  have hrc : readCells E t.length = (21 * t.length : Nat) + ((4 * t.length + 1 : Nat) : Int) * E.u := rfl
  have hpos : 0 ≤ ((4 * t.length + 1 : Nat) : Int) * E.u := Int.mul_nonneg (by omega) hu
  obtain ⟨g1, g2, g3, g4⟩ := hr
  obtain ⟨x, s', w', H', r1, ⟨r2, r3⟩, r4⟩ := readAll_fresh (fuel := fuel) hm hp hn hb.printable h
    (show RoomFor E s (21 * t.length) (4 * t.length + 1) from ⟨hbase, by simp only [g_cells]; omega⟩) hf hk hd
  have hc := r4.frame.consts
  have hfree := r4.free
  have hsp : s'.sp = s.sp := (congrArg St.sp r4.frame.rest :)
  have hr0 : s'.r0 = s.r0 := (congrArg St.r0 r4.frame.rest :)
  have hle := r4.frame.le
  have hg := atMain_grow s' x
  refine ⟨x, s', w', H', r1, r4.rd, r4.grown, r4.newer, r2, s'.atMain x, _, mainRead_ok r1 ⟨by omega, by rw [hc.arena]; simp only [g_cells]; omega⟩ (by omega) (by rw [hc.size]; omega), fun ν fs hν hmean huse => ?_⟩
  obtain ⟨L, hL, hprog⟩ := meansProgram_ok hν (r4.shown h hb.printable) hmean x s.free s'.free hbase r2 r3 huse
  have hl := hb.later r4 h fun a ha => (hL.range a ha).1
  have hw := hb.worldRead r4 h hL.range
  have hpr := hprog (W.read s H' L) (fun _ => True) (hb.readPre r4 h hL)
    ⟨fun a ha => ha, fun a h1 h2 h3 hc => by
      rcases hc with hc | hc
      · have := hb.world.below a hc; omega
      · exact h3 hc⟩
  have hlg := hg.later (W.read s H' L)
  have hll := hl.trans hlg
  obtain ⟨c1, c2⟩ := atMain_cell s' x
  have hfr := atMain_free s' x
  have hfix : ∀ a, s'.free ≤ a → ¬ (W.read s H' L).chg a := fun a ha hc => by have := hw.below a hc; omega
  have hmac : (s'.atMain x).macros = s.macros := hc.macros
  have hnot : ∀ y, s.Valid y ∨ True → (M y ∨ y = c_symbol_portable_macro_expand ∨ y = c_symbol_define) → NotMacro (s'.atMain x) (W.read s H' L) n y := by
    intro y _ hy
    have ht := hb.macros
    have hs : slot n ((W.read s H' L).name y) < n := Nat.mod_lt _ ht.pos
    have hcell := hb.buckets _ hs
    have e0 := hll.same _ ht.valid.2 ht.fixed
    have e2 := hll.same _ ht.rvalid.2 ht.rfixed
    have e3 := hll.same _ ht.vvalid.2 ht.vfixed
    have eb : bucketsOf (s'.atMain x) (s'.atMain x).macros = bucketsOf s s.macros := by unfold bucketsOf; rw [hmac, e0, e2]
    have ec : macroBucket (s'.atMain x) (W.read s H' L) n y = (s.cell (bucketsOf s s.macros)).cdr + slot n ((W.read s H' L).name y) := by
      unfold macroBucket; rw [eb, e3]
    have e4 := hll.same _ hcell.valid.2 hcell.fixed
    constructor
    · rw [ec]; exact hll.valid hcell.valid
    · rw [ec, e4]; exact hcell.tag
    · rw [ec]; exact hll.fixed hcell.valid hcell.fixed
    · rw [ec, e4]
      exact hcell.none.imp id fun ⟨h1, h2⟩ => ⟨FixedPair.later (W := W.rename (newName s W H')) h1 hll, ((h2 y hy).rename).later hll⟩
  have hname : ∀ y ∈ c_symbol_portable_macro_expand :: c_symbol_define :: formNames, IsName (s'.atMain x) (W.read s H' L) y :=
    fun y hy => ((hb.heads y hy).rename newName_old).later hll
  refine ⟨⟨by rw [hfr]; omega, ?_, ?_, ?_, ?_⟩, W.read s H' L, L, ⟨⟨rfl, ?_⟩, ⟨⟨⟨hw.grow hg rfl, ?_, hname _ (by simp), hnot _ (.inr trivial) (.inr (.inl rfl))⟩,
    fun y hy => hnot y (.inr trivial) (.inl hy), fun y hy => ⟨hname y (List.mem_cons_of_mem _ hy), hnot y (.inr trivial) ?_⟩⟩, ?_, ?_, fun _ => trivial, hb.forms⟩, hpr.grow hg, ?_⟩, hL.nodup⟩
  · show 0 ≤ s'.safety; rw [hc.safety]; exact g1
  · rw [hfr]; show _ + s'.safety ≤ s'.arena; rw [hc.safety, hc.arena]; omega
  · show 5 * (d : Int) ≤ s'.sp - 5; omega
  · show s'.sp - 5 + 5 ≤ s'.stackSize; rw [hc.size]; omega
  · show (if s'.sp - 5 = s'.sp - 5 then c_unspecified else _) = c_unspecified
    rw [if_pos rfl]
  · have ht := hb.macros
    have : MacroTable s (W.rename (newName s W H')) n := ⟨ht.valid, ht.tag, ht.length, ht.fixed, ht.size, ht.sfixed, ht.rvalid, ht.rtag, ht.rfixed, ht.vvalid, ht.vtag, ht.vlength,
      ht.vfixed, ht.pos, ht.small⟩
    exact this.later hll hmac
  · rcases List.mem_cons.1 hy with rfl | hy
    · exact .inr (.inr rfl)
    · exact .inl (hb.forms y hy).1
  · show IsScope _ _ _ (s'.free + 1) _
    have hb' : 116 ≤ s.free := hbase
    refine ⟨⟨by simp only [c_nil]; omega, ⟨by simp only [c_symbol_max] at hbase; omega, by rw [hfr]; omega⟩, by rw [c2], hfix _ (by omega)⟩, ?_, ?_, ?_, ?_, hb.keys.2, ?_, fun _ _ => rfl⟩
    · rw [c2]; exact ⟨by show 0 < s'.free; omega, by rw [hfr]; show s'.free < s'.free + 2; omega⟩
    · rw [c2]; show ((s'.atMain x).cell s'.free).tag = _; rw [c1]
    · rw [c2]; intro hm
      have := (hL.range _ hm).2
      exact absurd this (by show ¬ s'.free < s'.free; omega)
    · rw [c2]; show ¬ M ((s'.atMain x).cell s'.free).car; rw [c1]; exact hb.keys.1
    · rw [c2]; show IsEnv _ _ _ s'.r0 _
      rw [hr0]
      exact fun y hy => ⟨((hb.env y hy).rename).later hll, nofun⟩
  · show ((s'.atMain x).cell ((s'.atMain x).cell (s'.free + 1)).car).car ≠ c_closure
    rw [c2]; show ((s'.atMain x).cell s'.free).car ≠ _; rw [c1]; show c_symbol_program ≠ c_closure; decide
  · exact fun a _ => hb.cur a

theorem mainRead_at (hν : Naming ν) (hm : 45 ≤ E.mx) (hp : Program E.mx ds t) (hn : ∀ d ∈ ds, d ≠ .nil) (hmean : MeansProgram ν mes M ds fs)
    (hb : BootPre E mes σ W n M H s) (h : Reading E s w H t clear) (hr : BootRoom E s t.length k d) (hf : 2 * t.length + 2 ≤ fuel)
    (hk : H.length + t.length < E.k) (hd : ds.length < more) :
    ∃ x s' w' H', readAll E.k fuel more s w = ok (x, s', w') ∧ Reading E s' w' H' [] false ∧ Grown H H' ∧
    ∃ s1 w1, mainRead E.k fuel more s w = ok (s1, w1) ∧
      ((∀ name, (Datum.list ds).Uses name → lookup name H' = some (ν name)) →
        Ready s1 k d ∧ ∃ W' L, AtProgram s1 W' mes n ⟨M, fun _ => True⟩ σ fs L ∧ L.Nodup) := by
  obtain ⟨x, s', w', H', r1, r2, r3, -, -, s1, w1, r4, r5⟩ := mainRead_read hm hp hn hb h hr hf hk hd
  exact ⟨x, s', w', H', r1, r2, r3, s1, w1, r4, r5 ν fs hν hmean⟩

end Mes
