import Verif.Proof.Boot
import Verif.Proof.Start
import Verif.Model.Init
import Verif.Spec.Setup
/-
What `main` does before it reads the program.
-/
namespace Mes
open Res Spec

variable {E : Env} {s s' s'' : St} {w : In} {H H' H'' : List (List Byte × Int)} {bs : List Byte} {clear mes : Bool} {A B A' n n' : Nat}
  {l : List (List Byte × Value)} {f : Int → List Byte}

/-- The symbols known from the start. -/
def startNames : List (List Byte × Int) := stored predefined c_nil []

/-- What changes while the interpreter is set up: cells are allocated, at most `A`, and at most `n` names are new. -/
structure Go (E : Env) (s : St) (H : List (List Byte × Int)) (s' : St) (H' : List (List Byte × Int)) (A n : Nat) : Prop where
  le : s.free ≤ s'.free
  same : ∀ a, a < s.free → ¬ E.touch a → s'.cell a = s.cell a
  tag : ∀ a, a < s.free → (s'.cell a).tag = (s.cell a).tag
  kept : ∀ a, a < s.free → (s.cell a).tag ≠ .ref → (s.cell a).tag ≠ .port → s'.cell a = s.cell a
  free : s'.free ≤ s.free + A
  grown : Grown H H'
  length : H'.length ≤ H.length + n
  newer : ∀ name x, lookup name H' = some x → lookup name H = some x ∨ s.free ≤ x ∧ x < s'.free ∧ (s'.cell x).tag = .symbol
  arena : s'.arena = s.arena
  safety : s'.safety = s.safety
  size : s'.stackSize = s.stackSize
  maxString : s'.maxString = s.maxString
  top : s.sp = s.stackSize → s'.sp = s'.stackSize
  symbols : s'.symbols = s.symbols

theorem Go.refl (E : Env) (s : St) (H : List (List Byte × Int)) : Go E s H s H 0 0 :=
  ⟨Int.le_refl _, fun _ _ _ => rfl, fun _ _ => rfl, fun _ _ _ _ => rfl, by simp, Grown.refl H, by simp, fun _ _ h => .inl h, rfl, rfl, rfl, rfl, id, rfl⟩

theorem Go.trans (h : Go E s H s' H' A n) (h' : Go E s' H' s'' H'' A' n') : Go E s H s'' H'' (A + A') (n + n') where
  le := Int.le_trans h.le h'.le
  same := fun a ha ht => by rw [h'.same a (Int.lt_of_lt_of_le ha h.le) ht, h.same a ha ht]
  tag := fun a ha => by rw [h'.tag a (Int.lt_of_lt_of_le ha h.le), h.tag a ha]
  kept := fun a ha h1 h2 => by
    have e := h.kept a ha h1 h2
    rw [h'.kept a (Int.lt_of_lt_of_le ha h.le) (by rw [e]; exact h1) (by rw [e]; exact h2), e]
  free := by have := h.free; have := h'.free; rw [Int.natCast_add]; omega
  grown := h.grown.trans h'.grown
  length := by have := h.length; have := h'.length; omega
  newer := fun name x hx => by
    rcases h'.newer name x hx with hx | ⟨h1, h2⟩
    · rcases h.newer name x hx with hx' | ⟨h1, h2, h3⟩
      · exact .inl hx'
      · exact .inr ⟨h1, Int.lt_of_lt_of_le h2 h'.le, by rw [h'.tag x h2]; exact h3⟩
    · exact .inr ⟨Int.le_trans h.le h1, h2⟩
  arena := h'.arena.trans h.arena
  safety := h'.safety.trans h.safety
  size := h'.size.trans h.size
  maxString := h'.maxString.trans h.maxString
  top := h'.top ∘ h.top
  symbols := h'.symbols.trans h.symbols

theorem Go.weaken (h : Go E s H s' H' A n) (hA : A ≤ A') (hn : n ≤ n') : Go E s H s' H' A' n' :=
  ⟨h.le, h.same, h.tag, h.kept, by have := h.free; omega, h.grown, by have := h.length; omega, h.newer, h.arena, h.safety, h.size, h.maxString, h.top, h.symbols⟩

theorem Go.room (h : Go E s H s' H' A n) {k k' : Int} (hr : Room s k) (hk : A + k' ≤ k) : Room s' k' :=
  ⟨Int.le_trans hr.base h.le, by have := hr.room; have := h.free; rw [h.arena]; omega⟩

theorem Spec.Reading.touch_pos (h : Reading E s w H bs clear) {a : Int} (ha : E.touch a) : s.Valid a := by
  refine ⟨?_, h.touch_lt ha⟩
  rcases ha with ⟨-, h1⟩ | ⟨h1, h2⟩
  · omega
  · have := h.sym.table.bvalid (a - E.b).toNat (by omega)
    rw [h.buckets, show E.b + ((a - E.b).toNat : Int) = a by omega] at this
    exact this.1

theorem Run.go {w' : In} {bs' : List Byte} {clear' : Bool} {l : Nat} (h : Run E s H s' w' H' bs' clear' A 0 l) (h0 : Reading E s w H bs clear) :
    Go E s H s' H' A l where
  le := h.frame.le
  same := fun a ha ht => h.frame.same a ha ht
  tag := fun a ha => h.tag_eq h0 ha
  kept := fun a ha h1 h2 => h.frame.same a ha fun ht => by
    rcases h0.touch_tag (h0.touch_pos ht) ht with h | h
    · exact h1 h
    · exact h2 h
  free := by have := h.free; simpa using this
  grown := h.grown
  length := h.length
  newer := fun name x hx => by
    rcases h.newer name x hx with hx' | ⟨h1, h2⟩
    · exact .inl hx'
    · exact .inr ⟨h1, (h.rd.sym.named _ (lookup_mem hx)).1.valid.2, h2⟩
  arena := h.frame.consts.arena
  safety := h.frame.consts.safety
  size := h.frame.consts.size
  maxString := h.frame.maxString
  top := fun e => by rw [h.frame.sp, h.frame.consts.size]; exact e
  symbols := h.frame.symbols

theorem Spec.Frame.go (h : Ext s s') (hA : s'.free ≤ s.free + A) : Go E s H s' H A 0 :=
  ⟨h.le, fun a ha _ => h.same a ha id, fun a ha => by rw [h.same a ha id], fun a ha _ _ => h.same a ha id, hA, Grown.refl H, by simp,
    fun _ _ h => .inl h, h.consts.arena, h.consts.safety, h.consts.size, h.maxString, fun e => by rw [h.sp, h.consts.size]; exact e, h.symbols⟩

/-! ### Values -/

/-- Before there are variables, only cells of the symbol table change. -/
def bare (E : Env) (f : Int → List Byte) : Ghost := { name := f, loc := fun _ => 0, count := 0, chg := E.touch }

theorem Go.later (h : Go E s H s' H' A n) (hr : Reading E s w H bs clear) : Later (bare E f) s (bare E f) s' where
  le := h.le
  same := h.same
  tag := h.tag
  car := fun a ha ht _ => by rw [h.kept a ha (by simp [ht]) (by simp [ht])]
  count := Nat.le_refl _
  loc := fun _ _ => rfl
  chg := fun _ _ h => h
  still := fun _ _ h _ => h
  name := rfl
  kept := fun _ _ h _ => h.elim
  src := fun _ _ h => h.elim
  glob := fun _ _ h => by cases h
  rest := fun _ _ h _ => h.elim
  cur := rfl

/-- The association list at an address: names and values. -/
inductive Binds (s : St) (W : Ghost) (mes : Bool) (H : List (List Byte × Int)) : Int → List (List Byte × Value) → Prop
  | nil : Binds s W mes H c_nil []
  | cons {a : Int} {name : List Byte} {v : Value} {l : List (List Byte × Value)} (hp : FixedPair s W.chg a)
      (he : FixedPair s W.chg (s.cell a).car) (hn : name ≠ [35, 102]) (hk : lookup name H = some (s.cell (s.cell a).car).car)
      (hv : IsVal s W mes (s.cell (s.cell a).car).cdr v) (h : Binds s W mes H (s.cell a).cdr l) : Binds s W mes H a ((name, v) :: l)

theorem Binds.later {W W' : Ghost} {a : Int} (h : Binds s W mes H a l) (hl : Later W s W' s') (hg : Grown H H') : Binds s' W' mes H' a l := by
  induction h with
  | nil => exact .nil
  | cons hp he hn hk hv _ ih =>
    have e1 := hp.cell_eq hl
    have e2 := he.cell_eq hl
    exact .cons (hp.later hl) (by rw [e1]; exact he.later hl) hn (by rw [e1, e2]; exact hg _ _ hn hk) (by rw [e1, e2]; exact hv.later hl)
      (by rw [e1]; exact ih)

/-- The state of the set-up: the association list at `a` has the entries `l`. -/
structure Stage (E : Env) (s : St) (w : In) (H : List (List Byte × Int)) (bs : List Byte) (clear mes : Bool) (a : Int)
    (l : List (List Byte × Value)) : Prop where
  rd : Reading E s w H bs clear
  old : Grown startNames H
  file : E.p = 0 ∧ FileInput w bs clear
  binds : ∀ f, Binds s (bare E f) mes H a l

variable {a : Int}

theorem Stage.go (h : Stage E s w H bs clear mes a l) (g : Go E s H s' H' A n) (hr : Reading E s' w H' bs clear) :
    Stage E s' w H' bs clear mes a l :=
  ⟨hr, h.old.trans g.grown, h.file, fun f => (h.binds f).later (g.later h.rd) g.grown⟩

theorem Spec.Reading.fresh (h : Reading E s w H bs clear) {a : Int} (ha : s.free ≤ a) : ¬ E.touch a := fun ht => by
  have := h.touch_lt ht; omega

theorem fixedPair_new (h : Reading E s w H bs clear) (hx : Ext s s') {p : Int} (hp : s.free ≤ p) (hv : s'.Valid p) (ht : (s'.cell p).tag = .pair) :
    FixedPair s' E.touch p :=
  ⟨by have := h.names.base; simp only [c_symbol_max, c_nil] at *; omega, hv, ht, h.fresh hp⟩

/-- One more entry. -/
theorem acons_stage {name : List Byte} {k v : Int} {u : Value} (h : Stage E s w H bs clear mes a l) (hn : name ≠ [35, 102])
    (hk : lookup name H = some k) (hv : ∀ f, IsVal s (bare E f) mes v u) (hr : Room s 2) :
    ∃ a' s', acons s k v a = ok (a', s') ∧ Stage E s' w H bs clear mes a' ((name, u) :: l) ∧ Go E s H s' H 2 0 := by
  have r1 : Room s 1 := hr.mono (by decide)
  have x1 := push_ext s { tag := .pair, car := k, cdr := v }
  have r2 : Room (s.push { tag := .pair, car := k, cdr := v }) 1 := hr.push _
  have x2 := push_ext (s.push { tag := .pair, car := k, cdr := v }) { tag := .pair, car := s.free, cdr := a }
  have v1 := r1.free_valid { tag := .pair, car := k, cdr := v }
  have v2 := r2.free_valid { tag := .pair, car := s.free, cdr := a }
  have c1 : (s.push { tag := .pair, car := k, cdr := v }).cell s.free = { tag := .pair, car := k, cdr := v } := St.push_cell_free ..
  have hrun : acons s k v a = ok ((s.push { tag := .pair, car := k, cdr := v }).free,
      (s.push { tag := .pair, car := k, cdr := v }).push { tag := .pair, car := s.free, cdr := a }) := by
    simp only [acons, cons_ok r1, ok_bind, cons_ok r2]
  have e1 : (s.push { tag := .pair, car := k, cdr := v }).free = s.free + 1 := by simp
  generalize s.push { tag := .pair, car := k, cdr := v } = s1 at *
  have c2 : (s1.push { tag := .pair, car := s.free, cdr := a }).cell s1.free = { tag := .pair, car := s.free, cdr := a } := St.push_cell_free ..
  have c1' : (s1.push { tag := .pair, car := s.free, cdr := a }).cell s.free = { tag := .pair, car := k, cdr := v } := by
    rw [x2.same _ (by omega) id, c1]
  have e2 : (s1.push { tag := .pair, car := s.free, cdr := a }).free = s1.free + 1 := by simp
  generalize s1.push { tag := .pair, car := s.free, cdr := a } = s2 at *
  have hx : Ext s s2 := x1.trans x2
  have g : Go E s H s2 H 2 0 := hx.go (by rw [e2, e1]; omega)
  have st := h.go g (h.rd.ext hx)
  refine ⟨_, s2, hrun, ⟨st.rd, st.old, st.file, fun f => ?_⟩, g⟩
  refine .cons (fixedPair_new h.rd hx (by omega) v2 (by rw [c2])) ?_ hn ?_ ?_ ?_
  · rw [c2]; exact fixedPair_new h.rd hx (by dsimp only; omega) (x2.valid v1) (by rw [c1'])
  · rw [c2, c1']; exact hk
  · rw [c2, c1']; exact (hv f).later (g.later h.rd)
  · rw [c2]; exact st.binds f

theorem Stage.ext (h : Stage E s w H bs clear mes a l) (hx : Ext s s') (hA : s'.free ≤ s.free + A) :
    Stage E s' w H bs clear mes a l ∧ Go E s H s' H A 0 :=
  ⟨h.go (hx.go hA) (h.rd.ext hx), hx.go hA⟩

theorem Stage.pre {name : List Byte} {k : Int} (h : Stage E s w H bs clear mes a l) (hn : name ≠ [35, 102]) (hk : lookup name startNames = some k) :
    lookup name H = some k := h.old _ _ hn hk

/-- The name of a predefined symbol. -/
def nameOf (k : Int) : List Byte := ((predefined[(k - c_nil).toNat]?).map Prod.snd).getD []

theorem Spec.IsString.go {x : Int} {t : List Byte} (h : IsString s x t) (g : Go E s H s' H' A n) : IsString s' x t := by
  have e1 := g.kept x h.valid.2 (by rw [h.tag]; decide) (by rw [h.tag]; decide)
  have e2 := g.kept _ h.bvalid.2 (by rw [h.btag]; decide) (by rw [h.btag]; decide)
  have v : ∀ a, s.Valid a → s'.Valid a := fun a ha => ⟨ha.1, Int.lt_of_lt_of_le ha.2 g.le⟩
  exact ⟨⟨v _ h.valid, by rw [e1]; exact h.length, by rw [e1]; exact v _ h.bvalid, by rw [e1, e2]; exact h.btag, by rw [e1, e2]; exact h.bytes⟩,
    by rw [e1]; exact h.tag⟩

theorem aconsNumber_stage {name : List Byte} {k i : Int} (h : Stage E s w H bs clear mes a l) (hn : name ≠ [35, 102])
    (hk : lookup name H = some k) (hr : Room s 3) :
    ∃ a' s', aconsNumber s k i a = ok (a', s') ∧ Stage E s' w H bs clear mes a' ((name, .int i) :: l) ∧ Go E s H s' H 3 0 := by
  have h1 := makeNumber_ok (hr.mono (by decide)) i
  have hx := push_ext s { tag := .number, car := 0, cdr := i }
  have hi := hr.push_isNum i
  have hf : (s.push { tag := .number, car := 0, cdr := i }).free = s.free + 1 := by simp
  generalize s.push { tag := .number, car := 0, cdr := i } = s1 at *
  obtain ⟨st, g⟩ := h.ext (A := 1) hx (by rw [hf]; omega)
  obtain ⟨a', s2, b1, b2, b3⟩ := acons_stage st hn hk (fun f => .int hi (h.rd.fresh (Int.le_refl _))) (g.room hr (by decide))
  exact ⟨a', s2, by simp only [aconsNumber, h1, ok_bind, b1], b2, g.trans b3⟩

theorem string_val {x : Int} {t : List Byte} (h : Reading E s w H bs clear) (hx : IsString s x t) : IsVal s (bare E f) mes x (.obj x) :=
  .obj hx.valid (by rw [hx.tag]; decide) fun e => by
    have := h.names.fixed c_undefined (by decide) (by decide)
    rw [← e, hx.tag] at this
    split at this <;> cases this

theorem aconsString_stage {name t : List Byte} {k : Int} (h : Stage E s w H bs clear mes a l) (hn : name ≠ [35, 102])
    (hk : lookup name H = some k) (hm : t.length ≤ s.maxString) (hr : Room s (t.length / 8 + 7 : Nat)) :
    ∃ a' s' x, aconsString s k t a = ok (a', s') ∧ Stage E s' w H bs clear mes a' ((name, .obj x) :: l) ∧ IsString s' x t ∧
      Go E s H s' H (t.length / 8 + 7) 0 := by
  obtain ⟨s1, m1, m2, m3, m4⟩ := makeString_ok hm (hr.mono (by unfold stringCells; omega))
  obtain ⟨st, g⟩ := h.ext (A := t.length / 8 + 5) m3 (by unfold stringCells at m4; omega)
  obtain ⟨a', s2, b1, b2, b3⟩ := acons_stage st hn hk (fun f => string_val st.rd m2) (g.room hr (by omega))
  exact ⟨a', s2, _, by simp only [aconsString, m1, ok_bind, b1], b2, m2.go b3, g.trans b3⟩

theorem fixed_isVal {k : Int} (h : Reading E s w H bs clear) (h1 : c_nil ≤ k) (h2 : k < c_symbol_max) (h3 : k ≠ c_undefined) :
    IsVal s (bare E f) mes k (.obj k) := by
  have hb := h.names.base
  refine .obj ⟨by simp only [c_nil] at h1; omega, by omega⟩ ?_ h3
  rw [h.names.fixed k h1 h2]
  split <;> decide

/-! ### Constants -/

/-- The entries for the types. -/
def typeEntries (ts : List (Int × Tag)) : List (List Byte × Value) := ts.reverse.map fun e => (nameOf e.1, .int e.2.toInt)

theorem aconsTypes_stage : ∀ (ts : List (Int × Tag)) {s : St} {a : Int} {l : List (List Byte × Value)}, Stage E s w H bs clear mes a l →
    (∀ e ∈ ts, nameOf e.1 ≠ [35, 102] ∧ lookup (nameOf e.1) startNames = some e.1) → Room s (3 * ts.length : Nat) →
    ∃ a' s', aconsTypes ts s a = ok (a', s') ∧ Stage E s' w H bs clear mes a' (typeEntries ts ++ l) ∧ Go E s H s' H (3 * ts.length) 0
  | [], s, a, l, h, _, _ => ⟨a, s, rfl, h, Go.refl _ _ _⟩
  | e :: ts, s, a, l, h, ht, hr => by
    simp only [List.length_cons] at hr ⊢
    obtain ⟨a1, s1, b1, b2, b3⟩ := aconsNumber_stage (i := e.2.toInt) h (ht e (by simp)).1 (h.pre (ht e (by simp)).1 (ht e (by simp)).2) (hr.mono (by omega))
    obtain ⟨a2, s2, c1, c2, c3⟩ := aconsTypes_stage ts b2 (fun e' he => ht e' (by simp [he])) (b3.room hr (by omega))
    refine ⟨a2, s2, by simp only [aconsTypes, b1, ok_bind, c1], ?_, (b3.trans c3).weaken (by omega) (by omega)⟩
    have : typeEntries (e :: ts) ++ l = typeEntries ts ++ ((nameOf e.1, .int e.2.toInt) :: l) := by simp [typeEntries]
    rw [this]
    exact c2

theorem binds_val : ∀ {l : List (List Byte × Value)} {a : Int}, Reading E s w H bs clear → (∀ f, Binds s (bare E f) mes H a l) → (∀ name x, (name, x) ∈ l → lookup name H ≠ some c_undefined) →
    ∃ u, ∀ f, IsVal s (bare E f) mes a u
  | [], a, hr, h, _ => by
    have : a = c_nil := by cases h (fun _ => []); rfl
    subst this
    exact ⟨_, fun f => fixed_isVal hr (by decide) (by decide) (by decide)⟩
  | (name, v) :: l, a, hr, h, hu => by
    have key : ∀ f, FixedPair s E.touch a ∧ FixedPair s E.touch (s.cell a).car ∧ lookup name H = some (s.cell (s.cell a).car).car ∧
        IsVal s (bare E f) mes (s.cell (s.cell a).car).cdr v ∧ Binds s (bare E f) mes H (s.cell a).cdr l := fun f => by
      cases h f with
      | cons hp he hn hk hv h => exact ⟨hp, he, hk, hv, h⟩
    obtain ⟨u, hu'⟩ := binds_val (l := l) hr (fun f => (key f).2.2.2.2) (fun n x hx => hu n x (by simp [hx]))
    obtain ⟨k1, k2, k3, -⟩ := key (fun _ => [])
    have hm := hr.sym.named _ (lookup_mem k3)
    refine ⟨.pair (.pair (.obj _) v) u, fun f => .pair k1 (.pair k2 (.obj hm.1.valid ?_ fun e => ?_) (key f).2.2.2.1) (hu' f)⟩
    · rcases hm.2 with h | h <;> rw [h] <;> decide
    · exact hu name v (by simp) (by rw [k3, e])

/-- The symbol at `k` has its name from the start. -/
def Predefined (k : Int) : Prop := nameOf k ≠ [35, 102] ∧ lookup (nameOf k) startNames = some k

instance (k : Int) : Decidable (Predefined k) := by unfold Predefined; infer_instance

theorem Stage.undefined {name : List Byte} (h : Stage E s w H bs clear mes a l) (hn : name ≠ nameOf c_undefined) : lookup name H ≠ some c_undefined := fun e => by
  have h1 := (h.rd.sym.named _ (lookup_mem e)).1
  have h2 := (h.rd.sym.named _ (lookup_mem (h.pre (name := nameOf c_undefined) (k := c_undefined) (by decide +kernel) (by decide +kernel)))).1
  exact hn (h1.inj h2)

theorem typeNumbers_names : ∀ e ∈ typeNumbers, nameOf e.1 ≠ [35, 102] ∧ lookup (nameOf e.1) startNames = some e.1 := by decide +kernel

theorem acons_fixed {k v : Int} (h : Stage E s w H bs clear mes a l) (hk : Predefined k) (h1 : c_nil ≤ v) (h2 : v < c_symbol_max) (h3 : v ≠ c_undefined)
    (hr : Room s 2) : ∃ a' s', acons s k v a = ok (a', s') ∧ Stage E s' w H bs clear mes a' ((nameOf k, .obj v) :: l) ∧ Go E s H s' H 2 0 :=
  acons_stage h hk.1 (h.pre hk.1 hk.2) (fun _ => fixed_isVal h.rd h1 h2 h3) hr

/-- The constants of the core. -/
def constants (closure : Value) (datadir version : Int) : List (List Byte × Value) :=
  (nameOf c_closure, closure) :: (typeEntries typeNumbers ++ [(nameOf c_symbol_mes_datadir, .obj datadir), (nameOf c_symbol_mes_version, .obj version),
    (nameOf c_symbol_current_module, .obj c_symbol_current_module), (nameOf c_symbol_boot_module, .obj c_symbol_boot_module),
    (nameOf c_symbol_call_with_values, .obj c_symbol_call_with_values)])

theorem constants_names : ∀ name ∈ (typeEntries typeNumbers).map Prod.fst ++ [nameOf c_symbol_mes_datadir, nameOf c_symbol_mes_version,
    nameOf c_symbol_current_module, nameOf c_symbol_boot_module, nameOf c_symbol_call_with_values], name ≠ nameOf c_undefined := by
  decide +kernel

theorem initConstants_stage {o : Setup} (h : Stage E s w H bs clear mes c_nil []) (h1 : o.version.length ≤ s.maxString) (h2 : o.datadir.length ≤ s.maxString)
    (hr : Room s (o.version.length / 8 + o.datadir.length / 8 + 76 : Nat)) :
    ∃ a' s' u y x, initConstants s o = ok (a', s') ∧ Stage E s' w H bs clear mes a' (constants u y x) ∧ IsString s' y o.datadir ∧ IsString s' x o.version ∧
      Go E s H s' H (o.version.length / 8 + o.datadir.length / 8 + 76) 0 := by
  obtain ⟨a1, s1, b1, b2, b3⟩ := acons_fixed (k := c_symbol_call_with_values) (v := c_symbol_call_with_values) h (by decide +kernel) (by decide) (by decide) (by decide) (hr.mono (by omega))
  obtain ⟨a2, s2, c1, c2, c3⟩ := acons_fixed (k := c_symbol_boot_module) (v := c_symbol_boot_module) b2 (by decide +kernel) (by decide) (by decide) (by decide) (b3.room hr (by omega))
  have g2 := b3.trans c3
  obtain ⟨a3, s3, d1, d2, d3⟩ := acons_fixed (k := c_symbol_current_module) (v := c_symbol_current_module) c2 (by decide +kernel) (by decide) (by decide) (by decide) (g2.room hr (by omega))
  have g3 := g2.trans d3
  have n4 : Predefined c_symbol_mes_version := by decide +kernel
  obtain ⟨a4, s4, x, e1, e2, e3, e4⟩ := aconsString_stage (t := o.version) d2 n4.1 (d2.pre n4.1 n4.2) (by rw [g3.maxString]; exact h1) (g3.room hr (by omega))
  have g4 := g3.trans e4
  have n5 : Predefined c_symbol_mes_datadir := by decide +kernel
  obtain ⟨a5, s5, y, i1, i2, i3, i4⟩ := aconsString_stage (t := o.datadir) e2 n5.1 (e2.pre n5.1 n5.2) (by rw [g4.maxString]; exact h2) (g4.room hr (by omega))
  have g5 := g4.trans i4
  obtain ⟨a6, s6, j1, j2, j3⟩ := aconsTypes_stage typeNumbers i2 typeNumbers_names (g5.room hr (by simp only [typeNumbers, List.length_cons, List.length_nil]; omega))
  have g6 := g5.trans j3
  obtain ⟨u, hu⟩ := binds_val j2.rd j2.binds (fun name v hv => j2.undefined (constants_names name (by
    have := List.mem_map_of_mem (f := Prod.fst) hv
    simpa using this)))
  have n7 : Predefined c_closure := by decide +kernel
  obtain ⟨a7, s7, k1, k2, k3⟩ := acons_stage j2 n7.1 (j2.pre n7.1 n7.2) hu (g6.room hr (by simp only [typeNumbers, List.length_cons, List.length_nil]; omega))
  have g7 := g6.trans k3
  refine ⟨a7, s7, u, y, x, by simp only [initConstants, b1, c1, d1, e1, i1, j1, k1, ok_bind], k2, (i3.go j3).go k3, ((e3.go i4).go j3).go k3, g7.weaken ?_ ?_⟩
  · simp only [typeNumbers, List.length_cons, List.length_nil]; omega
  · omega

/-! ### The command line -/

theorem Spec.Texts.go (g : Go E s H s' H' A n) : ∀ {ys : List Int} {ts : List (List Byte)}, Texts s ys ts → Texts s' ys ts
  | [], [], _ => trivial
  | _ :: _, _ :: _, h => ⟨h.1.go g, Texts.go g h.2⟩
  | [], _ :: _, h => h.elim
  | _ :: _, [], h => h.elim

theorem argvList_stage : ∀ (rev : List (List Byte)) {s : St} {lst : Int} {ys : List Int} {ts : List (List Byte)}, Stage E s w H bs clear mes a l →
    (∀ f, IsVal s (bare E f) mes lst (listVal (ys.map .obj))) → Texts s ys ts → (∀ t ∈ rev, t.length ≤ s.maxString) → Room s (argCells rev : Nat) →
    ∃ lst' s' ys', argvList rev s lst = ok (lst', s') ∧ Stage E s' w H bs clear mes a l ∧ (∀ f, IsVal s' (bare E f) mes lst' (listVal (ys'.map .obj))) ∧
      Texts s' ys' (rev.reverse ++ ts) ∧ Go E s H s' H (argCells rev) 0
  | [], s, lst, ys, ts, h, hv, ht, _, _ => ⟨lst, s, ys, rfl, h, hv, ht, Go.refl _ _ _⟩
  | t :: rev, s, lst, ys, ts, h, hv, ht, hm, hr => by
    simp only [argCells] at hr ⊢
    obtain ⟨s1, m1, m2, m3, m4⟩ := makeString_ok (hm t (by simp)) (hr.mono (by unfold stringCells; omega))
    obtain ⟨st, g⟩ := h.ext (A := t.length / 8 + 5) m3 (by unfold stringCells at m4; omega)
    have r1 : Room s1 1 := g.room hr (by omega)
    have hc := cons_ok r1 s.free lst
    have x2 := push_ext s1 { tag := .pair, car := s.free, cdr := lst }
    have v2 := r1.free_valid { tag := .pair, car := s.free, cdr := lst }
    have c2 : (s1.push { tag := .pair, car := s.free, cdr := lst }).cell s1.free = { tag := .pair, car := s.free, cdr := lst } := St.push_cell_free ..
    have f2 : (s1.push { tag := .pair, car := s.free, cdr := lst }).free = s1.free + 1 := by simp
    generalize s1.push { tag := .pair, car := s.free, cdr := lst } = s2 at *
    obtain ⟨st2, g2⟩ := st.ext (A := 1) x2 (by rw [f2]; omega)
    obtain ⟨lst', s', ys', b1, b2, b3, b4, b5⟩ := argvList_stage rev (lst := s1.free) (ys := s.free :: ys) (ts := t :: ts) st2
      (fun f => .pair (fixedPair_new st.rd x2 (Int.le_refl _) v2 (by rw [c2]))
        (by rw [c2]; exact (string_val st.rd m2).later (g2.later st.rd))
        (by rw [c2]; exact ((hv f).later (g.later h.rd)).later (g2.later st.rd)))
      ⟨m2.go g2, Texts.go g2 (Texts.go g ht)⟩ (fun t' ht' => by rw [g2.maxString, g.maxString]; exact hm t' (by simp [ht']))
      ((g.trans g2).room hr (by omega))
    exact ⟨lst', s', ys', by simp only [argvList, m1, ok_bind, hc, b1], b2, b3, by simpa using b4, ((g.trans g2).trans b5).weaken (by omega) (by omega)⟩

/-! ### Registers -/

/-- Only registers change. -/
theorem Stage.regs (h : Stage E s w H bs clear mes a l) (hc : SameCells s s') (hs : s'.symbols = s.symbols) (h1 : s'.arena = s.arena) (h2 : s'.safety = s.safety)
    (h3 : s'.stackSize = s.stackSize) (h4 : s'.maxString = s.maxString) (h5 : s.sp = s.stackSize → s'.sp = s'.stackSize) :
    Stage E s' w H bs clear mes a l ∧ Go E s H s' H 0 0 := by
  have g : Go E s H s' H 0 0 :=
    ⟨by rw [hc.free]; exact Int.le_refl _, fun _ _ _ => by rw [hc.cell], fun _ _ => by rw [hc.cell], fun _ _ _ _ => by rw [hc.cell], by rw [hc.free]; simp, Grown.refl H,
      by simp, fun _ _ h => .inl h, h1, h2, h3, h4, h5, hs⟩
  refine ⟨h.go g ⟨h.rd.sym.same hc hs, ?_, .file h.file.1 h.file.2, ⟨?_, ?_, h.rd.names.fls.same hc, h.rd.names.dot.same hc, h.rd.names.quotes⟩, ?_⟩, g⟩
  · have := h.rd.buckets
    rw [hs, hc.cell]
    unfold bucketsOf at *
    rw [hc.cell]; exact this
  · intro k k1 k2; rw [hc.cell]; exact h.rd.names.fixed k k1 k2
  · rw [hc.free]; exact h.rd.names.base
  · rw [h4]; exact h.rd.mx

theorem makeChar_stage (h : Stage E s w H bs clear mes a l) (hr : Room s 1) (c : Int) :
    ∃ x s', makeChar s c = ok (x, s') ∧ Stage E s' w H bs clear mes a l ∧ Go E s H s' H 1 0 ∧ s'.r0 = s.r0 ∧ s'.sp = s.sp := by
  have hx := push_ext s { tag := .char, car := 0, cdr := toInt32 c }
  obtain ⟨st, g⟩ := h.ext (A := 1) hx (by simp)
  exact ⟨_, _, makeChar_ok hr c, st, g, hx.r0, hx.sp⟩

theorem mesGStack_stage (h : Stage E s w H bs clear mes a l) (hr : Room s 3) :
    ∃ s', mesGStack s a = ok (a, s') ∧ Stage E s' w H bs clear mes a l ∧ Go E s H s' H 3 0 ∧ s'.sp = s'.stackSize := by
  obtain ⟨t1, g1⟩ := h.regs (s' := { s with sp := s.stackSize, r0 := a }) ⟨rfl, rfl⟩ rfl rfl rfl rfl rfl (fun _ => rfl)
  obtain ⟨x2, s2, a2, t2, g2, e2, p2⟩ := makeChar_stage t1 (g1.room hr (by decide)) 0
  obtain ⟨t3, g3⟩ := t2.regs (s' := { s2 with r1 := x2 }) ⟨rfl, rfl⟩ rfl rfl rfl rfl rfl id
  have q3 := ((g1.trans g2).trans g3)
  obtain ⟨x4, s4, a4, t4, g4, e4, p4⟩ := makeChar_stage t3 (q3.room hr (by decide)) 0
  obtain ⟨t5, g5⟩ := t4.regs (s' := { s4 with r2 := x4 }) ⟨rfl, rfl⟩ rfl rfl rfl rfl rfl id
  have q5 := (q3.trans g4).trans g5
  obtain ⟨x6, s6, a6, t6, g6, e6, p6⟩ := makeChar_stage t5 (q5.room hr (by decide)) 0
  obtain ⟨t7, g7⟩ := t6.regs (s' := { s6 with r3 := x6 }) ⟨rfl, rfl⟩ rfl rfl rfl rfl rfl id
  have q7 := (q5.trans g6).trans g7
  refine ⟨_, ?_, t7, q7.weaken (by omega) (by omega), ?_⟩
  · have : s6.r0 = a := by rw [e6]; show s4.r0 = a; rw [e4]; show s2.r0 = a; rw [e2]
    simp only [mesGStack, a2, ok_bind, a4, a6, this]
  · show s6.sp = s6.stackSize
    rw [p6, g6.size]; show s4.sp = s4.stackSize
    rw [p4, g4.size]; show s2.sp = s2.stackSize
    rw [p2, g2.size]

/-! ### Builtins -/

theorem Spec.IsNum.go {x i : Int} (h : IsNum s x i) (g : Go E s H s' H' A n) : IsNum s' x i := by
  have e := g.kept x h.valid.2 (by rw [h.tag]; decide) (by rw [h.tag]; decide)
  exact ⟨⟨h.valid.1, Int.lt_of_lt_of_le h.valid.2 g.le⟩, by rw [e]; exact h.tag, by rw [e]; exact h.value⟩

theorem Spec.ValAt.go {x : Int} {v : Val} (h : ValAt s x v) (g : Go E s H s' H' A n) : ValAt s' x v := by
  cases v with
  | num i => exact IsNum.go h g
  | chr c =>
    have e := g.kept x h.1.valid.2 (by rw [h.1.tag]; decide) (by rw [h.1.tag]; decide)
    exact ⟨⟨⟨h.1.valid.1, Int.lt_of_lt_of_le h.1.valid.2 g.le⟩, by rw [e]; exact h.1.tag, by rw [e]; exact h.1.value⟩, h.2⟩
  | obj y => exact ⟨h.1, ⟨h.2.1.1, Int.lt_of_lt_of_le h.2.1.2 g.le⟩, by rw [g.tag y h.2.1.2]; exact h.2.2⟩

theorem listOf_go {p : Int} {vs : List Val} (h : ListOf s (ValAt s) p vs) (g : Go E s H s' H' A n) : ListOf s' (ValAt s') p vs := by
  generalize hR : ValAt s = R at h
  induction h with
  | nil => exact .nil
  | @cons p v vs hne hv ht hx _ ih =>
    have e := g.kept p hv.2 (by rw [ht]; decide) (by rw [ht]; decide)
    subst hR
    exact .cons hne ⟨hv.1, Int.lt_of_lt_of_le hv.2 g.le⟩ (by rw [e]; exact ht) (by rw [e]; exact Spec.ValAt.go hx g) (by rw [e]; exact ih)

theorem Stage.intern {name : List Byte} (h : Stage E s w H bs clear mes a l) (h0 : 0 ≤ hashSum name) (hm : name.length ≤ s.maxString) (hk : H.length < E.k)
    (hr : Room s (name.length / 8 + 11 : Nat)) : ∃ x s' H', cstringToSymbol s E.k name = ok (x, s') ∧ Stage E s' w H' bs clear mes a l ∧
      Go E s H s' H' (name.length / 8 + 11) 1 ∧ HasText s' x name ∧ lookup name H' = some x ∧ ValAt s' x (.obj x) := by
  obtain ⟨x, s', H', b1, b2, b3, b4, b5⟩ := h.rd.intern (A := name.length / 8 + 11) (B := 0) h0 hm hk (by unfold RoomFor; simpa using hr) (Nat.le_refl _)
  have g := b2.go h.rd
  exact ⟨x, s', H', b1, h.go g b2.rd, g, b3, b5, rfl, b3.valid, by rcases b4 with h | h <;> rw [h] <;> decide⟩

theorem cons_stage {e p k : Int} {v : Val} {vs : List Val} (h : Stage E s w H bs clear mes a l) (hr : Room s (k + 1)) (hk : 0 ≤ k) (hl : ListOf s (ValAt s) p vs)
    (he : ValAt s e v) : ∃ q s', cons s e p = ok (q, s') ∧ Stage E s' w H bs clear mes a l ∧ Go E s H s' H 1 0 ∧ ListOf s' (ValAt s') q (v :: vs) ∧
      ValAt s' q (.obj q) := by
  obtain ⟨q, s', a1, a2, a3, a4, a5, a6, -⟩ := cons_vals hr hk hl he
  obtain ⟨st, g⟩ := h.ext (A := 1) a2 (by rw [a3]; simp)
  exact ⟨q, s', a1, st, g, a5, a6⟩

/-- A record type with three fields. -/
theorem recordType_stage {n1 n2 n3 : List Byte} {kind : Int} (h : Stage E s w H bs clear mes a l) (h1 : 0 ≤ hashSum n1) (h2 : 0 ≤ hashSum n2) (h3 : 0 ≤ hashSum n3)
    (l1 : n1.length < 8) (l2 : n2.length < 8) (l3 : n3.length < 8) (hm : 8 ≤ s.maxString) (hE : 4 ≤ E.k) (hk : H.length + 3 ≤ E.k) (hr : Room s 47)
    (k1 : c_nil ≤ kind) (k2 : kind < c_symbol_max) :
    ∃ x s' H', (do
      let (x, s) ← cstringToSymbol s E.k n1
      let (f, s) ← cons s x c_nil
      let (x, s) ← cstringToSymbol s E.k n2
      let (f, s) ← cons s x f
      let (x, s) ← cstringToSymbol s E.k n3
      let (f, s) ← cons s x f
      let (f, s) ← cons s f c_nil
      let (f, s) ← cons s kind f
      makeStruct s E.k c_symbol_record_type f c_unspecified) = ok (x, s') ∧ Stage E s' w H' bs clear mes a l ∧ Go E s H s' H' 47 3 ∧ ValAt s' x (.obj x) ∧ (s'.cell x).tag = .struct := by
  obtain ⟨x1, s1, H1, a1, t1, g1, -, -, v1⟩ := h.intern h1 (by omega) (by omega) (hr.mono (by omega))
  have g1 := g1.weaken (A' := 11) (n' := 1) (by omega) (by omega)
  obtain ⟨p2, s2, a2, t2, g2, L2, -⟩ := cons_stage (k := 35) t1 (g1.room hr (by decide)) (by decide) .nil v1
  have q2 := g1.trans g2
  obtain ⟨x3, s3, H3, a3, t3, g3, -, -, v3⟩ := t2.intern h2 (by rw [q2.maxString]; omega) (by have := q2.length; omega) (q2.room hr (by omega))
  have q3 := (q2.trans g3).weaken (A' := 23) (n' := 2) (by omega) (by omega)
  obtain ⟨p4, s4, a4, t4, g4, L4, -⟩ := cons_stage (k := 23) t3 (q3.room hr (by decide)) (by decide) (listOf_go L2 g3) v3
  have q4 := q3.trans g4
  obtain ⟨x5, s5, H5, a5, t5, g5, -, -, v5⟩ := t4.intern h3 (by rw [q4.maxString]; omega) (by have := q4.length; omega) (q4.room hr (by omega))
  have q5 := (q4.trans g5).weaken (A' := 35) (n' := 3) (by omega) (by omega)
  obtain ⟨p6, s6, a6, t6, g6, -, v6⟩ := cons_stage (k := 11) t5 (q5.room hr (by decide)) (by decide) (listOf_go L4 g5) v5
  have q6 := q5.trans g6
  obtain ⟨p7, s7, a7, t7, g7, L7, -⟩ := cons_stage (k := 10) t6 (q6.room hr (by decide)) (by decide) .nil v6
  have q7 := q6.trans g7
  obtain ⟨p8, s8, a8, t8, g8, L8, -⟩ := cons_stage (k := 9) t7 (q7.room hr (by decide)) (by decide) L7 (fixed_val t7.rd.names.fixed t7.rd.names.base k1 k2)
  have q8 := q7.trans g8
  have nm := t8.rd.names
  obtain ⟨x, s9, e1, e2, e3, e4, e5, e6⟩ := makeStruct_ok (fuel := E.k) (s := s8) (ty := c_symbol_record_type) (pr := c_unspecified)
    (q8.room hr (by simp)) (fixed_val nm.fixed nm.base (by decide) (by decide)) (fixed_val nm.fixed nm.base (by decide) (by decide)) L8 (by simp; omega)
  obtain ⟨t9, g9⟩ := t8.ext (A := 9) e3 (by simpa [Int.add_assoc] using e6)
  refine ⟨x, s9, H5, by simp only [a1, a2, a3, a4, a5, a6, a7, a8, e1, ok_bind], t9, (q8.trans g9).weaken (by omega) (by omega), ⟨rfl, e2.valid, ?_⟩, e2.tag⟩
  rw [e2.tag]; decide

theorem makeBuiltinType_stage (h : Stage E s w H bs clear mes a l) (hm : 8 ≤ s.maxString) (hE : 4 ≤ E.k) (hk : H.length + 3 ≤ E.k) (hr : Room s 47) :
    ∃ x s' H', makeBuiltinType s E.k = ok (x, s') ∧ Stage E s' w H' bs clear mes a l ∧ Go E s H s' H' 47 3 ∧ ValAt s' x (.obj x) ∧ (s'.cell x).tag = .struct :=
  recordType_stage h (by decide) (by decide) (by decide) (by decide) (by decide) (by decide) hm hE hk hr (by decide) (by decide)

theorem makeModuleType_stage (h : Stage E s w H bs clear mes a l) (hm : 8 ≤ s.maxString) (hE : 4 ≤ E.k) (hk : H.length + 3 ≤ E.k) (hr : Room s 47) :
    ∃ x s' H', makeModuleType s E.k = ok (x, s') ∧ Stage E s' w H' bs clear mes a l ∧ Go E s H s' H' 47 3 ∧ ValAt s' x (.obj x) ∧ (s'.cell x).tag = .struct :=
  recordType_stage h (by decide) (by decide) (by decide) (by decide) (by decide) (by decide) hm hE hk hr (by decide) (by decide)

theorem makeBuiltin_stage {type str y z arity id : Int} (h : Stage E s w H bs clear mes a l) (hty : ValAt s type (.obj type)) (hstr : ValAt s str (.obj str))
    (hy : IsNum s y arity) (hz : IsNum s z id) (hm : 15 ≤ s.maxString) (hE : 5 ≤ E.k) (hk : H.length < E.k) (hr : Room s 29) :
    ∃ x s' H', makeBuiltin s E.k type str y z = ok (x, s') ∧ Stage E s' w H' bs clear mes a l ∧ Go E s H s' H' 29 1 ∧
      ∀ f, IsVal s' (bare E f) mes x (.prim arity id) := by
  obtain ⟨p1, s1, a1, t1, g1, L1, -⟩ := cons_stage (v := .num id) (k := 28) h hr (by decide) .nil hz
  obtain ⟨p2, s2, a2, t2, g2, L2, -⟩ := cons_stage (v := .num arity) (k := 27) t1 (g1.room hr (by decide)) (by decide) L1 (hy.go g1)
  have q2 := g1.trans g2
  obtain ⟨p3, s3, a3, t3, g3, L3, -⟩ := cons_stage (k := 26) t2 (q2.room hr (by decide)) (by decide) L2 (hstr.go q2)
  have q3 := q2.trans g3
  obtain ⟨p4, s4, a4, t4, g4, L4, -⟩ := cons_stage (e := c_symbol_builtin) (k := 25) t3 (q3.room hr (by decide)) (by decide) L3
    (fixed_val t3.rd.names.fixed t3.rd.names.base (by decide) (by decide))
  have q4 := q3.trans g4
  obtain ⟨x5, s5, H5, a5, t5, g5, -, -, v5⟩ := t4.intern (name := ascii ['b', 'u', 'i', 'l', 't', 'i', 'n', '-', 'p', 'r', 'i', 'n', 't', 'e', 'r']) (by decide)
    (by rw [q4.maxString]; exact hm) hk (q4.room hr (by decide))
  have q5 := (q4.trans g5).weaken (A' := 16) (n' := 1) (by decide) (by omega)
  obtain ⟨x, s6, e1, e2, e3, e4, e5, e6⟩ := makeStruct_ok (fuel := E.k) (s := s5) (q5.room hr (by simp)) (hty.go q5) v5 (listOf_go L4 g5) (by simp; omega)
  obtain ⟨t6, g6⟩ := t5.ext (A := 13) e3 (by simpa [Int.add_assoc] using e6)
  refine ⟨x, s6, H5, by simp only [makeBuiltin, a1, a2, a3, a4, a5, e1, ok_bind], t6, q5.trans g6, fun f => .prim ?_⟩
  have i2 := e2.entry 2 _ rfl
  have i4 := e2.entry 4 _ rfl
  have i5 := e2.entry 5 _ rfl
  have fr : ∀ b, s5.free ≤ b → ¬ E.touch b := fun b hb => t5.rd.fresh hb
  exact ⟨e2.valid, e2.tag, e2.length, fr _ e4, i2.1, i2.2.1, i2.2.2.1, fr _ (by rw [e5]; omega), i4, fr _ (by rw [e5]; omega), i5, fr _ (by rw [e5]; omega)⟩

theorem symbolToString_stage {x : Int} {name : List Byte} (h : Stage E s w H bs clear mes a l) (hx : HasText s x name) (hr : Room s 1) :
    ∃ y s', symbolToString s x = ok (y, s') ∧ Stage E s' w H bs clear mes a l ∧ Go E s H s' H 1 0 ∧ ValAt s' y (.obj y) := by
  have hp := push_ext s { tag := .string, car := (s.cell x).car, cdr := (s.cell x).cdr }
  obtain ⟨st, g⟩ := h.ext (A := 1) hp (by simp)
  refine ⟨_, _, ?_, st, g, rfl, hr.free_valid _, ?_⟩
  · simp only [symbolToString, St.rd_ok hx.valid, ok_bind, makeCell_ok hr]
  · rw [St.push_cell_free]; exact (by decide : Solid .string)

theorem makeNumber_stage (h : Stage E s w H bs clear mes a l) (hr : Room s 1) (i : Int) :
    ∃ y s', makeNumber s i = ok (y, s') ∧ Stage E s' w H bs clear mes a l ∧ Go E s H s' H 1 0 ∧ IsNum s' y i := by
  obtain ⟨st, g⟩ := h.ext (A := 1) (push_ext s { tag := .number, car := 0, cdr := i }) (by simp)
  exact ⟨_, _, makeNumber_ok hr i, st, g, hr.push_isNum i⟩

theorem initBuiltin_stage {type arity id : Int} {name : List Byte} (h : Stage E s w H bs clear mes a l) (hty : ValAt s type (.obj type)) (hn : name ≠ [35, 102])
    (h0 : 0 ≤ hashSum name) (hm : name.length ≤ s.maxString) (hm' : 15 ≤ s.maxString) (hE : 5 ≤ E.k) (hk : H.length + 2 ≤ E.k)
    (hr : Room s (name.length / 8 + 45 : Nat)) :
    ∃ a' s' H', initBuiltin s E.k type name arity id a = ok (a', s') ∧ Stage E s' w H' bs clear mes a' ((name, .prim arity id) :: l) ∧
      Go E s H s' H' (name.length / 8 + 45) 2 := by
  obtain ⟨x, s1, H1, a1, t1, g1, x1, k1, -⟩ := h.intern h0 hm (by omega) (hr.mono (by omega))
  obtain ⟨y, s2, a2, t2, g2, v2⟩ := symbolToString_stage t1 x1 (g1.room hr (by omega))
  have q2 := g1.trans g2
  obtain ⟨z, s3, a3, t3, g3, v3⟩ := makeNumber_stage t2 (q2.room hr (by omega)) arity
  have q3 := q2.trans g3
  obtain ⟨z', s4, a4, t4, g4, v4⟩ := makeNumber_stage t3 (q3.room hr (by omega)) id
  have q4 := q3.trans g4
  obtain ⟨b, s5, H5, a5, t5, g5, v5⟩ := makeBuiltin_stage t4 (hty.go q4) ((v2.go g3).go g4) (v3.go g4) v4 (by rw [q4.maxString]; exact hm') hE
    (by have := q4.length; omega) (q4.room hr (by omega))
  have q5 := q4.trans g5
  obtain ⟨a', s6, a6, t6, g6⟩ := acons_stage t5 hn (g5.grown _ _ hn k1) v5 (q5.room hr (by omega))
  exact ⟨a', s6, H5, by simp only [initBuiltin, a1, a2, a3, a4, a5, a6, ok_bind], t6, (q5.trans g6).weaken (by omega) (by omega)⟩

/-- The entries for the builtins. -/
def builtinEntries (es : List (List Byte × Int × Int)) : List (List Byte × Value) := es.reverse.map fun e => (e.1, .prim e.2.1 e.2.2)

/-- Cells for the builtins. -/
def builtinCells : List (List Byte × Int × Int) → Nat
  | [] => 0
  | e :: es => e.1.length / 8 + 45 + builtinCells es

theorem initBuiltins_stage {type : Int} : ∀ (es : List (List Byte × Int × Int)) {s : St} {H : List (List Byte × Int)} {a : Int} {l : List (List Byte × Value)},
    Stage E s w H bs clear mes a l → ValAt s type (.obj type) → (∀ e ∈ es, e.1 ≠ [35, 102] ∧ 0 ≤ hashSum e.1 ∧ e.1.length ≤ s.maxString) → 15 ≤ s.maxString →
    5 ≤ E.k → H.length + 2 * es.length ≤ E.k → Room s (builtinCells es : Nat) →
    ∃ a' s' H', initBuiltins E.k type es s a = ok (a', s') ∧ Stage E s' w H' bs clear mes a' (builtinEntries es ++ l) ∧
      Go E s H s' H' (builtinCells es) (2 * es.length)
  | [], s, H, a, l, h, _, _, _, _, _, _ => ⟨a, s, H, rfl, h, Go.refl _ _ _⟩
  | e :: es, s, H, a, l, h, hty, he, hm, hE, hk, hr => by
    simp only [builtinCells, List.length_cons] at hr hk ⊢
    obtain ⟨e1, e2, e3⟩ := he e (by simp)
    obtain ⟨a1, s1, H1, b1, b2, b3⟩ := initBuiltin_stage (arity := e.2.1) (id := e.2.2) h hty e1 e2 e3 hm hE (by omega) (hr.mono (by omega))
    obtain ⟨a2, s2, H2, c1, c2, c3⟩ := initBuiltins_stage es b2 (hty.go b3) (fun e' he' => by rw [b3.maxString]; exact he e' (by simp [he'])) (by rw [b3.maxString]; exact hm) hE
      (by have := b3.length; omega) (b3.room hr (by omega))
    refine ⟨a2, s2, H2, by simp only [initBuiltins, b1, ok_bind, c1], ?_, (b3.trans c3).weaken (by omega) (by omega)⟩
    have : builtinEntries (e :: es) ++ l = builtinEntries es ++ ((e.1, .prim e.2.1 e.2.2) :: l) := by simp [builtinEntries]
    rw [this]
    exact c2

end Mes
