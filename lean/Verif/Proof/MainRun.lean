import Verif.Proof.SizesRead
import Verif.Proof.Setup
/-
From the start of `main` to the call of `eval_apply`, in memories of all sizes.
-/
namespace Mes
open Res Spec

variable {E : Env} {s s' : St} {w : In} {H H' : List (List Byte × Int)} {bs : List Byte} {clear mes : Bool} {n : Nat} {W : Ghost} {σ : Store} {N P P' : Int → Prop} {u : Dims}

theorem as_cells (s : St) (u : Dims) : SameCells s (s.as u) := ⟨rfl, rfl⟩
theorem as_grow (s : St) (u : Dims) : Grow s (s.as u) := ⟨Int.le_refl _, fun _ _ => rfl⟩

theorem Spec.Printable.as (h : Printable s) (u : Dims) : Printable (s.as u) :=
  ⟨h.fixed, h.nil.same (as_cells s u), h.tru.same (as_cells s u), h.fls.same (as_cells s u), h.circ.same (as_cells s u)⟩

theorem Spec.MacroCell.as {b : Int} (h : MacroCell s W N b) (u : Dims) : MacroCell (s.as u) W N b :=
  have hl := (as_grow s u).later W
  ⟨h.valid, h.tag, h.fixed, h.none.imp id fun ⟨h1, h2⟩ => ⟨h1.later hl, fun x hx => (h2 x hx).later hl⟩⟩

theorem Spec.BootPre.as (h : BootPre E mes σ W n N H s) (u : Dims) : BootPre E mes σ W n N H (s.as u) :=
  have hl := (as_grow s u).later W
  ⟨h.world.grow (as_grow s u) rfl, h.printable.as u, h.chg, h.src, h.cur, h.touch, h.vars, fun name a h1 h2 => (h.names name a h1 h2).later hl,
    fun x hx => (h.env x hx).later hl, h.keys, h.forms, fun x hx => (h.heads x hx).later hl, h.macros.later hl rfl, fun i hi => (h.buckets i hi).as u⟩

theorem Spec.Reading.as (h : Reading E s w H bs clear) (hp : E.p = 0) {w' : In} {bs' : List Byte} {clear' : Bool} (hi : FileInput w' bs' clear') (u : Dims) :
    Reading E (s.as u) w' H bs' clear' :=
  ⟨h.sym.same (as_cells s u) rfl, h.buckets, .file hp hi, ⟨h.names.fixed, h.names.base, h.names.fls.same (as_cells s u), h.names.dot.same (as_cells s u), h.names.quotes⟩, h.mx⟩

theorem Spec.Started.as {o : Setup} (h : Started o s H σ) (u : Dims) : Started o (s.as u) H σ :=
  have hs : ∀ {x : Int} {t : List Byte}, IsString s x t → IsString (s.as u) x t := fun h => ⟨h.toHasText.same (as_cells s u), h.tag⟩
  ⟨h.builtins, h.types, h.ticks, h.version.imp fun _ h => ⟨h.1, hs h.2⟩, h.datadir.imp fun _ h => ⟨h.1, hs h.2⟩, h.compiler.imp fun _ h => ⟨h.1, hs h.2⟩,
    h.arch.imp fun _ h => ⟨h.1, hs h.2⟩, h.argv.imp fun _ h => ⟨h.1, Spec.Texts.same (as_cells s u) h.2⟩, h.only⟩

/-- The names of a datum in memory have symbols, which the memory determines. -/
theorem den_uses {name : List Byte} {d : Datum} (hu : d.Uses name) : ∀ {p : Int}, Den s H P p d → Den s' H' P' p d → s'.cell = s.cell →
    ∃ a, lookup name H = some a ∧ lookup name H' = some a ∧ name ≠ [35, 102] := by
  induction hu with
  | here =>
    intro p h h' _
    cases h with | sym _ _ h1 h2 => cases h' with | sym _ _ h3 _ => exact ⟨p, h1, h3, h2⟩
  | car _ ih =>
    intro p h h' hc
    cases h with | pair _ _ h1 _ => cases h' with | pair _ _ h2 _ => rw [hc] at h2; exact ih h1 h2 hc
  | cdr _ ih =>
    intro p h h' hc
    cases h with | pair _ _ _ h1 => cases h' with | pair _ _ _ h2 => rw [hc] at h2; exact ih h1 h2 hc

/-- The sizes of the memory after the set-up. -/
def Sizes.dims (z : Sizes) : Dims := ⟨z.arena, z.jam, z.safety, 1 + (z.arena + z.jam), z.stack, z.stack⟩

theorem gcInit_as (z z' : Sizes) (junk : Int → Cell) (stack : Int → Int) (hm : z'.maxString = z.maxString) :
    gcInit z' junk stack = (gcInit z junk stack).as ⟨z'.arena, z'.jam, z'.safety, 1 + (z'.arena + z'.jam), z'.stack, 0⟩ := by
  simp only [gcInit, St.as, hm]

/-- The set-up in a larger memory. -/
theorem mainSetup_more {z z' : Sizes} {junk : Int → Cell} {stack : Int → Int} {fuel more : Nat} {o : Setup} (h : mainSetup (gcInit z junk stack) fuel more o = ok s)
    (hm : z'.maxString = z.maxString) (ha : z.arena ≤ z'.arena) : mainSetup (gcInit z' junk stack) fuel more o = ok (s.as z'.dims) := by
  obtain ⟨s', h1, h2, -⟩ := Wide.mainSetup_as (u := ⟨z'.arena, z'.jam, z'.safety, 1 + (z'.arena + z'.jam), z'.stack, 0⟩) ⟨rfl, ha⟩ fuel more o s h
  rw [gcInit_as z z' junk stack hm, h1, h2]
  rfl

theorem lookup_inj (h : SymTable s n H) : ∀ n n' x, lookup n H = some x → lookup n' H = some x → n = n' := fun _ _ _ h1 h2 =>
  (h.named _ (lookup_mem h1)).1.inj (h.named _ (lookup_mem h2)).1

theorem Spec.VarIs.grown {name : List Byte} {v : Value} (h : VarIs H σ name v) (hg : Grown H H') (hn : name ≠ [35, 102]) : VarIs H' σ name v :=
  let ⟨x, loc, h1, h2⟩ := h
  ⟨x, loc, hg _ _ hn h1, h2⟩

theorem startVariables_names (mini : Bool) : ∀ name ∈ startVariables mini, name ≠ [35, 102] := by cases mini <;> decide +kernel

theorem Spec.Started.grown {o : Setup} (h : Started o s H σ) (hg : Grown H H') : Started o s H' σ :=
  have hn := startVariables_names o.mini
  ⟨fun e he => (h.builtins e he).grown hg (hn _ (by simp only [startVariables, List.mem_append, List.mem_map]; exact .inl ⟨e, he, rfl⟩)),
   fun e he => (h.types e he).grown hg (hn _ (by simp only [startVariables, List.mem_append, List.mem_map]; exact .inr (.inl ⟨e, he, rfl⟩))),
   h.ticks.grown hg (by decide), h.version.imp fun _ h => ⟨h.1.grown hg (by decide), h.2⟩, h.datadir.imp fun _ h => ⟨h.1.grown hg (by decide), h.2⟩,
   h.compiler.imp fun _ h => ⟨h.1.grown hg (by decide), h.2⟩, h.arch.imp fun _ h => ⟨h.1.grown hg (by decide), h.2⟩,
   h.argv.imp fun _ h => ⟨h.1.grown hg (by decide), h.2⟩, fun x loc hx => by
    obtain ⟨name, h1, h2⟩ := h.only x loc hx
    exact ⟨name, h1, hg _ _ (hn _ h1) h2⟩⟩

def formList : List (List Byte × Int) := [(nameQuote, c_symbol_quote), (nameIf, c_symbol_if), (nameLambda, c_symbol_lambda), (nameBegin, c_symbol_begin), (nameSet, c_symbol_set_x),
  (nameDefine, c_symbol_define)]

theorem start_form : ∀ e ∈ formList, e.1 ≠ [35, 102] ∧ lookup e.1 startNames = some e.2 := by decide +kernel

theorem start_predefined : ∀ e ∈ startNames, e.1 ∈ predefined.map Prod.snd := by decide +kernel

theorem known_of (hs : SymTable s n H) (hg : Grown startNames H) (hn : ∀ name x, lookup name H = some x → lookup name startNames = some x ∨ c_symbol_max ≤ x) : TableKnown H := by
  have one : ∀ e ∈ formList, symbolIn H e.1 = e.2 := fun e he => by
    obtain ⟨h1, h2⟩ := start_form e he
    simp only [symbolIn, hg _ _ h1 h2, Option.getD_some]
  refine ⟨⟨one (nameQuote, c_symbol_quote) (by simp [formList]), one (nameIf, c_symbol_if) (by simp [formList]), one (nameLambda, c_symbol_lambda) (by simp [formList]), one (nameBegin, c_symbol_begin) (by simp [formList]), one (nameSet, c_symbol_set_x) (by simp [formList]), one (nameDefine, c_symbol_define) (by simp [formList])⟩, lookup_inj hs, fun name x hx => (hn name x hx).imp (fun h => start_predefined _ (lookup_mem h)) id⟩

/-- `main` in all memories that are large enough: set-up and reading. -/
theorem main_run {mx fuel more fuel' more' : Nat} {o : Setup} {junk : Int → Cell} {stack : Int → Int} {t : List Byte} {ds : List Datum}
    (hk : o.kept = true) (ho : SetupTexts o mx) (hm : 64 ≤ mx) (hf : 500 ≤ fuel) (hmore : 200 ≤ more) (hi : FileInput w t clear) (hp : Program mx ds t) (hn : ∀ d ∈ ds, d ≠ .nil)
    (hl : 450 + t.length < fuel) (hf' : 2 * t.length + 2 ≤ fuel') (hm' : ds.length < more') :
    ∃ H σ, TableKnown H ∧ (∀ name, (Datum.list ds).Uses name → ∃ x, lookup name H = some x) ∧
      ∀ (k d : Nat) (z : Sizes), z.maxString = mx → 0 ≤ z.safety → (setupCells o + textRoom t.length + k : Nat) + z.safety ≤ z.arena → 5 * ((d : Int) + 1) ≤ z.stack →
      ∃ s0 s1 w1, mainSetup (gcInit z junk stack) fuel more o = ok s0 ∧ Started o s0 H σ ∧ mainRead fuel fuel' more' s0 w = ok (s1, w1) ∧
        ∀ fs, MeansProgram (symbolIn H) mes startScope ds fs → Ready s1 k d ∧ ∃ W' L, AtProgram s1 W' mes 100 ⟨startScope, fun _ => True⟩ σ fs L ∧ L.Nodup := by
  obtain ⟨E, s, H0, σ, W, e1, e2, e3, -, e5, a1, a2, a3, a4, a5, a6, a7, a8, -, -, -, -, -⟩ :=
    mainSetup_ok (mes := mes) (s := gcInit ⟨setupCells o, 0, 0, 0, mx⟩ junk stack) (fuel := fuel) (more := more) (o := o) hk ho (Int.le_refl _) hm hf hmore hi
  change E.mx = mx at e2
  have eu : E.u = 5 := by unfold Env.u; rw [e3]; rfl
  have erc : (readCells E t.length) + 2 = (textRoom t.length : Nat) := by
    simp only [readCells, textRoom, eu]
    omega
  have hfree : s.free ≤ setupCells o := a8
  have room : ∀ (k d : Nat) (u : Dims), 0 ≤ u.safety → (setupCells o + textRoom t.length + k : Nat) + u.safety ≤ u.arena → 5 * ((d : Int) + 1) ≤ u.sp → u.sp ≤ u.stackSize →
      BootRoom E (s.as u) t.length k d := fun k d u h1 h2 h3 h4 => ⟨h1, by show s.free + _ + u.safety ≤ u.arena; omega, h3, h4⟩
  have nomean : MeansProgram (fun _ => 0) mes startScope [] [] := .nil
  have rd := fun u => a2.as e5 hi (u := u)
  -- the sizes for the reader alone
  obtain ⟨u0, hu0⟩ : ∃ u0 : Dims, u0 = ⟨(setupCells o + textRoom t.length : Nat), 0, 0, 0, 10, 10⟩ := ⟨_, rfl⟩
  obtain ⟨x, s', w', H, r1, r2, r3, r4, r5, -⟩ := mainRead_read (k := 0) (d := 0) (by omega) (by rw [e2]; exact hp) hn (a3.as u0) (rd u0)
    (room 0 0 u0 (by rw [hu0]; exact Int.le_refl _) (by rw [hu0]; simp) (by rw [hu0]; show 5 * (((0 : Nat) : Int) + 1) ≤ 10; omega) (by rw [hu0]; exact Int.le_refl _)) hf' (by omega) hm'
  have hg := a5.trans r3
  have hknown : TableKnown H := known_of r2.sym hg fun name x hx => by
    rcases r4 name x hx with h | ⟨h, -⟩
    · exact a6 name x h
    · exact .inr (Int.le_trans a2.names.base h)
  refine ⟨H, σ, hknown, fun name hu => ?_, fun k d z h1 h2 h3 h4 => ?_⟩
  · obtain ⟨a, h1, -, -⟩ := den_uses hu r5 r5 rfl
    exact ⟨a, h1⟩
  · obtain ⟨x', s'', w'', H', q1, q2, q3, q4, q5, s1, w1, q6, q7⟩ := mainRead_read (k := k) (d := d) (by omega) (by rw [e2]; exact hp) hn (a3.as z.dims) (rd z.dims)
      (room k d z.dims h2 h3 h4 (Int.le_refl _)) hf' (by omega) hm'
    obtain ⟨⟨x2, s2, w2⟩, b1, b2, b3, b4⟩ := Wide.readAll_as (u := z.dims) E.k fuel' more' (s := s.as u0) (s' := s.as z.dims) (w := w)
      ⟨rfl, by rw [hu0]; show ((setupCells o + textRoom t.length : Nat) : Int) ≤ z.arena; omega⟩ _ r1
    rw [q1] at b1
    cases b1
    cases b2
    refine ⟨s.as z.dims, s1, w1, mainSetup_more (z' := z) a1 h1 (by show ((setupCells o : Nat) : Int) ≤ z.arena; omega), (a4.as z.dims).grown r3, by rw [← e1]; exact q6,
      fun fs hmean => q7 (symbolIn H) fs hknown.naming hmean fun name hu => ?_⟩
    obtain ⟨a, c1, c2, -⟩ := den_uses hu r5 q5 (show s''.cell = s'.cell from (congrArg St.cell b3.1 : s''.cell = (s'.as z.dims).cell))
    rw [c2, symbolIn, c1]
    rfl

end Mes
