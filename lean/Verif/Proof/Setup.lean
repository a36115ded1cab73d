import Verif.Proof.InitModule
/-
`main` up to the reading of the program.
-/
namespace Mes
open Res Spec

variable {E : Env} {s s' s'' : St} {w : In} {H H' H'' : List (List Byte × Int)} {bs : List Byte} {clear mes : Bool} {A B A' n n' : Nat}
  {l : List (List Byte × Value)} {f : Int → List Byte} {a t f0 b : Int} {W W' : Ghost} {σ : Store}

/-! ### The store -/

theorem defineEach_spec (hinj : ∀ n n' x, lookup n H = some x → lookup n' H = some x → n = n') :
    ∀ (l : List (List Byte × Value)) (σ : Store), (∀ e ∈ l, ∃ x, lookup e.1 H = some x) → (l.map Prod.fst).Nodup → (∀ x loc, σ.globals x = some loc → loc < σ.vals.length) →
      (∀ x, (∀ name ∈ l.map Prod.fst, lookup name H ≠ some x) → (defineEach H l σ).globals x = σ.globals x) ∧
      (∀ (i : Nat) (v : Value), σ.vals[i]? = some v → (defineEach H l σ).vals[i]? = some v) ∧ (∀ e ∈ l, VarIs H (defineEach H l σ) e.1 e.2)
  | [], σ, _, _, _ => ⟨fun _ _ => rfl, fun _ _ h => h, fun e he => by cases he⟩
  | e :: l, σ, hx, hn, hl => by
    obtain ⟨x0, e0⟩ := hx e (by simp)
    simp only [List.map_cons, List.nodup_cons] at hn
    obtain ⟨i1, i2, i3⟩ := defineEach_spec hinj l ⟨σ.vals ++ [e.2], fun y => if y = (lookup e.1 H).getD 0 then some σ.vals.length else σ.globals y⟩
      (fun e' he => hx e' (by simp [he])) hn.2 (fun x loc h => by
        simp only [List.length_append, List.length_singleton] at h ⊢
        split at h
        · cases h; omega
        · have := hl x loc h; omega)
    refine ⟨fun x hx' => ?_, fun i v h => ?_, fun e' he => ?_⟩
    · simp only [defineEach]
      rw [i1 x fun name hm => hx' name (by simp only [List.map_cons]; exact List.mem_cons_of_mem _ hm)]
      dsimp only
      rw [if_neg]
      intro h
      rw [e0] at h
      exact hx' e.1 (by simp) (by rw [h]; exact e0)
    · simp only [defineEach]
      refine i2 i v ?_
      have hlt : i < σ.vals.length := (List.getElem?_eq_some_iff.1 h).1
      rw [List.getElem?_append_left hlt]; exact h
    · simp only [defineEach]
      rcases List.mem_cons.1 he with rfl | he
      · refine ⟨x0, σ.vals.length, e0, ?_, i2 _ _ (by simp)⟩
        rw [i1 x0 fun name hm hl => hn.1 (by rw [hinj _ _ _ e0 hl]; exact hm)]
        simp [e0]
      · exact i3 e' he

/-! ### The variables -/

/-- The association list of the set-up. -/
def setupList (o : Setup) (clo : Value) (ys : List Int) (arch compiler datadir version : Int) : List (List Byte × Value) :=
  (nameOf c_symbol_internal_time_units_per_second, .int o.ticks) :: (builtinEntries (builtinTable o.mini) ++
    (nameOf c_symbol_argv, listVal (ys.map .obj)) :: (nameOf c_symbol_arch, .obj arch) :: (nameOf c_symbol_compiler, .obj compiler) ::
    constants clo datadir version)

def setupNames (mini : Bool) : List (List Byte) :=
  nameOf c_symbol_internal_time_units_per_second :: ((builtinTable mini).reverse.map Prod.fst ++
    nameOf c_symbol_argv :: nameOf c_symbol_arch :: nameOf c_symbol_compiler :: nameOf c_closure :: (typeNumbers.reverse.map fun e => nameOf e.1) ++
    [nameOf c_symbol_mes_datadir, nameOf c_symbol_mes_version, nameOf c_symbol_current_module, nameOf c_symbol_boot_module, nameOf c_symbol_call_with_values])

theorem setupList_names {o : Setup} {clo : Value} {ys : List Int} {arch compiler datadir version : Int} :
    (setupList o clo ys arch compiler datadir version).map Prod.fst = setupNames o.mini := by
  simp [setupList, setupNames, builtinEntries, constants, typeEntries, Function.comp_def]

theorem setup_nodup : ∀ mini, (nameOf c_symbol_hashq_table :: nameOf c_symbol_module :: setupNames mini).Nodup := by decide +kernel
theorem setup_start : ∀ mini, ∀ name ∈ nameOf c_symbol_hashq_table :: nameOf c_symbol_module :: setupNames mini, name ∈ startVariables mini := by decide +kernel
theorem setup_length : ∀ mini, (setupNames mini).length ≤ 170 := by decide +kernel
theorem setup_forms : ∀ mini, ∀ x ∈ formNames, Predefined x ∧ nameOf x ∉ nameOf c_symbol_hashq_table :: nameOf c_symbol_module :: setupNames mini := by decide +kernel
theorem setup_types : ∀ e ∈ typeValues, (e.1, Value.int e.2) ∈ typeEntries typeNumbers := by
  intro e he
  have : ∀ e ∈ typeValues, ∃ p ∈ typeNumbers, nameOf p.1 = e.1 ∧ p.2.toInt = e.2 := by decide +kernel
  obtain ⟨p, hp, h1, h2⟩ := this e he
  rw [← h1, ← h2]
  simp only [typeEntries, List.mem_map, List.mem_reverse]
  exact ⟨p, hp, rfl⟩
theorem setup_builtins : ∀ mini, ∀ e ∈ builtinTable mini, e.1 ≠ [35, 102] ∧ 0 ≤ hashSum e.1 ∧ e.1.length ≤ 64 := by decide +kernel
theorem setup_cells : ∀ mini, builtinCells (builtinTable mini) ≤ 6510 ∧ (builtinTable mini).length ≤ 142 := by decide +kernel

theorem argCells_append (l l' : List (List Byte)) : argCells (l ++ l') = argCells l + argCells l' := by
  induction l with
  | nil => simp [argCells]
  | cons t l ih => simp only [List.cons_append, argCells, ih]; omega

theorem argCells_reverse (l : List (List Byte)) : argCells l.reverse = argCells l := by
  induction l with
  | nil => rfl
  | cons t l ih => simp only [List.reverse_cons, argCells_append, ih, argCells]; omega

/-! ### The start -/

/-- What the reader uses when it reads the program. -/
def startEnv (s : St) (fuel : Nat) : Env := { m := 0, mx := s.maxString, k := fuel, n := 500, p := 0, b := (s.cell (bucketsOf s s.symbols)).cdr }

theorem start_mem : ∀ q ∈ ([([35, 102], c_f), ([46], c_dot)] : List (List Byte × Int)), q ∈ startNames := by decide +kernel
theorem start_quotes : ∀ q ∈ quotes, lookup q.2.1 startNames = some q.2.2 := by decide +kernel

theorem start_stage {fuel : Nat} (ha : 3000 ≤ s.arena) (hm : 64 ≤ s.maxString) (hf : 4 ≤ fuel) (hi : FileInput w bs clear) :
    ∃ s', initSymbols s fuel = ok s' ∧ Stage (startEnv s' fuel) s' w startNames bs clear mes c_nil [] ∧ s'.free ≤ 2900 ∧
      s'.arena = s.arena ∧ s'.maxString = s.maxString ∧ s'.safety = s.safety ∧ s'.stackSize = s.stackSize := by
  obtain ⟨s', h1, h2, h3, h4, h5, h6, h7, h8, h9⟩ := initSymbols_start ha hm hf
  refine ⟨s', h1, ⟨⟨h2, rfl, .file rfl hi, ⟨h3, h5, (h2.named _ (start_mem ([35, 102], c_f) (by simp))).1, (h2.named _ (start_mem ([46], c_dot) (by simp))).1, start_quotes⟩, Nat.le_refl _⟩,
    Grown.refl _, ⟨rfl, hi⟩, fun f => .nil⟩, h4, h6, h7, h8, h9⟩

theorem Spec.IsString.keep {P : Int → Prop} {x : Int} {t : List Byte} (h : IsString s x t) (hf : Frame P s s') (hp : ∀ a, P a → (s.cell a).tag = .ref) : IsString s' x t := by
  have e1 := hf.same x h.valid.2 fun hP => by have := hp _ hP; rw [h.tag] at this; cases this
  have e2 := hf.same _ h.bvalid.2 fun hP => by have := hp _ hP; rw [h.btag] at this; cases this
  have v : ∀ a, s.Valid a → s'.Valid a := fun a ha => ⟨ha.1, Int.lt_of_lt_of_le ha.2 hf.le⟩
  exact ⟨⟨v _ h.valid, by rw [e1]; exact h.length, by rw [e1]; exact v _ h.bvalid, by rw [e1, e2]; exact h.btag, by rw [e1, e2]; exact h.bytes⟩,
    by rw [e1]; exact h.tag⟩

theorem Spec.Texts.keep {P : Int → Prop} (hf : Frame P s s') (hp : ∀ a, P a → (s.cell a).tag = .ref) : ∀ {ys : List Int} {ts : List (List Byte)}, Texts s ys ts → Texts s' ys ts
  | [], [], _ => trivial
  | _ :: _, _ :: _, h => ⟨h.1.keep hf hp, Spec.Texts.keep hf hp h.2⟩
  | [], _ :: _, h => h.elim
  | _ :: _, [], h => h.elim

theorem Spec.Texts.same (hc : SameCells s s') : ∀ {ys : List Int} {ts : List (List Byte)}, Texts s ys ts → Texts s' ys ts
  | [], [], _ => trivial
  | _ :: _, _ :: _, h => ⟨⟨h.1.toHasText.same hc, by rw [hc.cell]; exact h.1.tag⟩, Spec.Texts.same hc h.2⟩
  | [], _ :: _, h => h.elim
  | _ :: _, [], h => h.elim

/-- `mes_environment` -/
theorem mesEnvironment_stage {fuel : Nat} {o : Setup} (ho : SetupTexts o s.maxString) (ha : setupCells o ≤ s.arena) (hm : 64 ≤ s.maxString) (hf : 500 ≤ fuel) (hi : FileInput w bs clear) :
    ∃ E s1 a' s' clo ys arch compiler datadir version, E.k = fuel ∧ E.mx = s.maxString ∧ E.m = 0 ∧ E.n = 500 ∧ E.p = 0 ∧ mesEnvironment s fuel o = ok (a', s') ∧
      Stage E s' w startNames bs clear mes a' ((nameOf c_symbol_argv, listVal (ys.map .obj)) :: (nameOf c_symbol_arch, .obj arch) :: (nameOf c_symbol_compiler, .obj compiler) ::
        constants clo datadir version) ∧
      IsString s' version o.version ∧ IsString s' datadir o.datadir ∧ IsString s' compiler o.compiler ∧ IsString s' arch o.arch ∧ Texts s' ys o.argv ∧
      Go E s1 startNames s' startNames (setupCells o - 11000 + 95) 0 ∧ s'.sp = s'.stackSize ∧ s1.free ≤ 2900 ∧
      s1.arena = s.arena ∧ s1.maxString = s.maxString ∧ s1.safety = s.safety ∧ s1.stackSize = s.stackSize := by
  obtain ⟨o1, o2, o3, o4, o5⟩ := ho
  have hcells : (setupCells o : Int) = 11000 + ((o.version.length / 8 : Nat) : Int) + ((o.datadir.length / 8 : Nat) : Int) + ((o.compiler.length / 8 : Nat) : Int) + ((o.arch.length / 8 : Nat) : Int) + (argCells o.argv : Int) := by
    simp only [setupCells]; omega
  obtain ⟨s1, a1, t1, f1, e1, e2, e3, e4⟩ := start_stage (mes := mes) (s := s) (fuel := fuel) (by omega) hm (by omega) hi
  have r1 : Room s1 (setupCells o - 11000 + 95 : Nat) := ⟨t1.rd.names.base, by simp only [g_cells]; rw [e1]; omega⟩
  have hsub : setupCells o - 11000 = o.version.length / 8 + o.datadir.length / 8 + o.compiler.length / 8 + o.arch.length / 8 + argCells o.argv := by simp only [setupCells]; omega
  rw [hsub] at r1 ⊢
  obtain ⟨a2, s2, clo, dd, ve, b2, t2, sd2, sv2, g2⟩ := initConstants_stage (o := o) t1 (by rw [e2]; exact o1) (by rw [e2]; exact o2) (r1.mono (by omega))
  have n3 : Predefined c_symbol_compiler := by decide +kernel
  obtain ⟨a3, s3, co, b3, t3, sc3, g3⟩ := aconsString_stage (t := o.compiler) (k := c_symbol_compiler) t2 n3.1 (t2.pre n3.1 n3.2) (by rw [g2.maxString, e2]; exact o3) (g2.room r1 (by omega))
  have q3 := g2.trans g3
  have n4 : Predefined c_symbol_arch := by decide +kernel
  obtain ⟨a4, s4, ar, b4, t4, sa4, g4⟩ := aconsString_stage (t := o.arch) (k := c_symbol_arch) t3 n4.1 (t3.pre n4.1 n4.2) (by rw [q3.maxString, e2]; exact o4) (q3.room r1 (by omega))
  have q4 := q3.trans g4
  obtain ⟨lst, s5, ys, b5, t5, v5, x5, g5⟩ := argvList_stage (ys := []) (ts := []) (lst := c_nil) o.argv.reverse t4 (fun f => fixed_isVal t4.rd (by decide) (by decide) (by decide)) trivial
    (fun t ht => by rw [q4.maxString, e2]; exact o5 t (by simpa using ht)) (q4.room r1 (by rw [argCells_reverse]; omega))
  have q5 := q4.trans g5
  rw [List.reverse_reverse, List.append_nil] at x5
  have n6 : Predefined c_symbol_argv := by decide +kernel
  obtain ⟨a6, s6, b6, t6, g6⟩ := acons_stage (k := c_symbol_argv) t5 n6.1 (t5.pre n6.1 n6.2) v5 (q5.room r1 (by rw [argCells_reverse]; omega))
  have q6 := q5.trans g6
  obtain ⟨s7, b7, t7, g7, p7⟩ := mesGStack_stage t6 (q6.room r1 (by rw [argCells_reverse]; omega))
  have h7 := (g6.trans g7)
  have h5 := g5.trans h7
  have h4 := g4.trans h5
  have h3 := g3.trans h4
  refine ⟨startEnv s1 fuel, s1, a6, s7, clo, ys, ar, co, dd, ve, rfl, e2, rfl, rfl, rfl, ?_, t7, sv2.go h3, sd2.go h3, sc3.go h4, sa4.go h5, x5.go h7,
    (q6.trans g7).weaken (by rw [argCells_reverse]; omega) (by omega), p7, f1, e1, e2, e3, e4⟩
  simp only [mesEnvironment, a1, ok_bind, b2, b3, b4, b5, b6, b7]

/-- `main` up to the reading of the program. -/
theorem mainSetup_ok {fuel more : Nat} {o : Setup} (hk : o.kept = true) (ho : SetupTexts o s.maxString) (ha : setupCells o ≤ s.arena) (hm : 64 ≤ s.maxString) (hf : 500 ≤ fuel)
    (hmore : 200 ≤ more) (hi : FileInput w bs clear) :
    ∃ E s' H σ W, E.k = fuel ∧ E.mx = s.maxString ∧ E.m = 0 ∧ E.n = 500 ∧ E.p = 0 ∧ mainSetup s fuel more o = ok s' ∧ Reading E s' w H bs clear ∧ BootPre E mes σ W 100 startScope H s' ∧
      Started o s' H σ ∧ Grown startNames H ∧ (∀ name x, lookup name H = some x → lookup name startNames = some x ∨ c_symbol_max ≤ x) ∧ H.length ≤ 450 ∧ s'.free ≤ setupCells o ∧ s'.arena = s.arena ∧ s'.maxString = s.maxString ∧ s'.safety = s.safety ∧
      s'.stackSize = s.stackSize ∧ s'.sp = s'.stackSize := by
  obtain ⟨E, s1, a2, s2, clo, ys, ar, co, dd, ve, k1, k2, k3, k4, k5, b2, t2, sv, sd, sc, sa, sx, g2, p2, f1, e1, e2, e3, e4⟩ := mesEnvironment_stage (mes := mes) ho ha hm hf hi
  have hset : 11000 ≤ setupCells o := by simp only [setupCells]; omega
  have hl0 : startNames.length = 113 := by decide +kernel
  have hbt := setup_builtins o.mini
  obtain ⟨c1, c2⟩ := setup_cells o.mini
  have r2 : Room s2 7900 := ⟨t2.rd.names.base, by have := g2.free; simp only [g_cells]; rw [g2.arena, e1]; omega⟩
  obtain ⟨ty, s3, H3, b3, t3, g3, v3, -⟩ := makeBuiltinType_stage t2 (by rw [g2.maxString, e2]; omega) (by rw [k1]; omega) (by rw [hl0, k1]; omega) (r2.mono (by decide))
  have l3 := g3.length
  obtain ⟨a4, s4, H4, b4, t4, g4⟩ := initBuiltins_stage (builtinTable o.mini) t3 v3
    (fun e he => ⟨(hbt e he).1, (hbt e he).2.1, by rw [g3.maxString, g2.maxString, e2]; exact Nat.le_trans (hbt e he).2.2 hm⟩)
    (by rw [g3.maxString, g2.maxString, e2]; omega) (by rw [k1]; omega) (by rw [k1]; omega) (g3.room r2 (by omega))
  have q4 := g3.trans g4
  have l4 := g4.length
  have n5 : Predefined c_symbol_internal_time_units_per_second := by decide +kernel
  obtain ⟨a5, s5, b5, t5, g5⟩ := aconsNumber_stage (k := c_symbol_internal_time_units_per_second) (i := o.ticks) t4 n5.1 (t4.pre n5.1 n5.2) (q4.room r2 (by omega))
  have q5 := q4.trans g5
  obtain ⟨m, a6, s6, H6, f0, t, mt, ht, b6, F, m6, g6⟩ := makeInitialModule_founded t5 (by rw [q5.maxString, g2.maxString, e2]; omega) (by rw [k1]; omega) (by rw [k1]; omega) (q5.room r2 (by omega))
  have q6 := q5.trans g6
  have l6 := g6.length
  have total := g2.trans q6
  have hnames : ∀ {l : List (List Byte × Value)}, l = setupList o clo ys ar co dd ve → l.map Prod.fst = setupNames o.mini := fun h => by rw [h]; exact setupList_names
  change Founded E s6 w H6 bs clear mes a6 ((nameOf c_symbol_hashq_table, .obj ht) :: (nameOf c_symbol_module, .obj mt) :: setupList o clo ys ar co dd ve) f0 t at F
  generalize hL : setupList o clo ys ar co dd ve = L at F
  have hLn := hnames hL.symm
  have hLl : L.length ≤ 170 := by rw [← List.length_map (f := Prod.fst), hLn]; exact setup_length _
  have hinj : ∀ n n' x, lookup n H6 = some x → lookup n' H6 = some x → n = n' := fun n n' x h1 h2 =>
    (F.stage.rd.sym.named _ (lookup_mem h1)).1.inj (F.stage.rd.sym.named _ (lookup_mem h2)).1
  have hall : ((nameOf c_symbol_hashq_table, Value.obj ht) :: (nameOf c_symbol_module, Value.obj mt) :: L).map Prod.fst = nameOf c_symbol_hashq_table :: nameOf c_symbol_module :: setupNames o.mini := by
    simp [hLn]
  have hlook : ∀ {l : List (List Byte × Value)} {a : Int}, (∀ f, Binds s6 (bare E f) mes H6 a l) → ∀ e ∈ l, ∃ x, lookup e.1 H6 = some x := by
    intro l
    induction l with
    | nil => intro _ _ e he; cases he
    | cons e0 l ih =>
      intro a h e he
      have hh := (h (fun _ => [])).head
      rcases List.mem_cons.1 he with rfl | he
      · exact ⟨_, hh.2.2.2.1⟩
      · exact ih (fun f => (h f).head.2.2.2.2.2) e he
  obtain ⟨d1, -, d3⟩ := defineEach_spec hinj _ ⟨[], fun _ => none⟩ (hlook F.stage.binds) (by rw [hall]; exact setup_nodup _) (fun x loc h => by cases h)
  rw [hall] at d1
  have r6 : Room s6 (4 * L.length + 240 : Nat) := q6.room r2 (by omega)
  obtain ⟨s7, mac, s8, W, u1, u2, u3, u4, u5, u6, u7⟩ := finish (more := more) (fuel := fuel) F total.symbols_new (by omega) (by omega) r6 (fun x hx => by
    obtain ⟨hp, hno⟩ := setup_forms o.mini x hx
    refine d1 x fun name hn hl => hno ?_
    rw [← hinj _ _ _ hl (F.stage.pre hp.1 hp.2)]
    exact hn)
  have hkeep : ∀ a, (a ≥ f0 ∧ (s6.cell a).tag = .ref) → (s6.cell a).tag = .ref := fun _ h => h.2
  have hstr : ∀ {x : Int} {t : List Byte}, IsString s2 x t → IsString { s8 with macros := mac } x t := fun h => have k := (h.go q6).keep u7 hkeep; ⟨k.toHasText.same ⟨rfl, rfl⟩, k.tag⟩
  have hin : ∀ e ∈ setupList o clo ys ar co dd ve, VarIs H6 (defineEach H6 ((nameOf c_symbol_hashq_table, .obj ht) :: (nameOf c_symbol_module, .obj mt) :: L) ⟨[], fun _ => none⟩) e.1 e.2 :=
    fun e he => d3 e (by rw [hL] at he; simp [he])
  refine ⟨E, { s8 with macros := mac }, H6, _, W, k1, k2, k3, k4, k5, ?_, u4, u5, ⟨?_, ?_, ?_, ?_, ?_, ?_, ?_, ?_, ?_⟩, F.stage.old, fun name x hx => (q6.newer name x hx).imp id fun h => Int.le_trans t2.rd.names.base h.1, by omega, ?_, ?_, ?_, ?_, ?_, ?_⟩
  · rw [k1] at b3 b4 b6
    simp only [mainSetup, b2, ok_bind, mesBuiltins, b3, b4, initTime, b5, hk, if_true, b6, u1]
    rw [show ({ s7 with m0 := m } : St) = s7 from by rw [← m6, ← u2]]
    simp only [u3, ok_bind]
  · intro e he
    exact hin (e.1, .prim e.2.1 e.2.2) (by
      simp only [setupList, List.mem_cons, List.mem_append]
      refine .inr (.inl ?_)
      simp only [builtinEntries, List.mem_map, List.mem_reverse]
      exact ⟨e, he, rfl⟩)
  · intro e he
    exact hin (e.1, .int e.2) (by
      simp only [setupList, constants, List.mem_cons, List.mem_append]
      exact .inr (.inr (.inr (.inr (.inr (.inr (.inl (setup_types e he))))))))
  · exact hin (nameOf c_symbol_internal_time_units_per_second, .int o.ticks) (by simp [setupList])
  · exact ⟨ve, hin (nameOf c_symbol_mes_version, .obj ve) (by simp [setupList, constants]), hstr sv⟩
  · exact ⟨dd, hin (nameOf c_symbol_mes_datadir, .obj dd) (by simp [setupList, constants]), hstr sd⟩
  · exact ⟨co, hin (nameOf c_symbol_compiler, .obj co) (by simp [setupList, constants]), hstr sc⟩
  · exact ⟨ar, hin (nameOf c_symbol_arch, .obj ar) (by simp [setupList, constants]), hstr sa⟩
  · exact ⟨ys, hin (nameOf c_symbol_argv, listVal (ys.map .obj)) (by simp [setupList, constants]), Spec.Texts.same (s := s8) (s' := { s8 with macros := mac }) ⟨rfl, rfl⟩ ((sx.go q6).keep u7 hkeep)⟩
  · intro x loc hx
    by_cases h : ∃ name ∈ nameOf c_symbol_hashq_table :: nameOf c_symbol_module :: setupNames o.mini, lookup name H6 = some x
    · obtain ⟨name, h1, h2⟩ := h
      exact ⟨name, setup_start _ name h1, h2⟩
    · rw [d1 x fun name h1 h2 => h ⟨name, h1, h2⟩] at hx
      cases hx
  · have := total.free
    show s8.free ≤ _
    omega
  · exact u7.consts.arena.trans (total.arena.trans e1)
  · exact u7.maxString.trans (total.maxString.trans e2)
  · exact u7.consts.safety.trans (total.safety.trans e3)
  · exact u7.consts.size.trans (total.size.trans e4)
  · have h1 := q6.top p2
    show s8.sp = s8.stackSize
    rw [u7.sp, u7.consts.size]; exact h1

end Mes
