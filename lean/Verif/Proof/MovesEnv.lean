import Verif.Proof.Moves
/-
Variables in corresponding memories.
-/
namespace Mes.Gc
open Res Spec
variable {M : Mode} {P P' : Int → Prop} {f f' : Int → Int} {s s' t t' : St} {K : Calls}

/-! ### Records -/

theorem structRef_sim (h : Rel M P f s s') {v v' : Int} (i : Nat) (hv : At P f v v') : Sim M P f (structRef s v i) (structRef s' v' i) := by
  obtain ⟨hv, rfl⟩ := hv
  have hc := h.iso.cell v hv
  simp only [structRef, St.rd_ok (h.valid hv), St.rd_ok (h.valid' hv), ok_bind]
  rw [hc.tag]
  by_cases ht : (s.cell v).tag = .struct
  · have hbl : isBlock (s.cell v).tag := by rw [ht]; rfl
    have hcar : (s'.cell (f v)).car = (s.cell v).car := by rw [hc.car, if_neg (by rw [ht]; nofun)]
    simp only [assert, ht, if_true, ok_bind, hcar]
    by_cases hi : (i : Int) < (s.cell v).car
    · simp only [hi, if_true, ok_bind]
      have he := h.iso.element v hv hbl i hi
      have hin := h.sound.inside v hv _ (owns_element hbl hi)
      have hin' := h.sound'.inside (f v) ⟨v, hv, rfl⟩ _ (owns_element (a := f v) (i := i) (by rw [hc.tag]; exact hbl) (by omega))
      simp only [c_nil] at hin hin'
      have v1 : s.Valid ((s.cell v).cdr + i) := ⟨by omega, by omega⟩
      have v2 : s'.Valid ((s'.cell (f v)).cdr + i) := ⟨by omega, by omega⟩
      simp only [fetch, deref, St.rd_ok v1, St.rd_ok v2, ok_bind]
      rcases h.sound.plain v hv hbl i hi with hp | hp | hp
      · have hpe := h.closed.element v hv hbl i hi hp
        have hce := h.iso.cell _ hpe
        rw [if_pos hp, if_pos (he.tag.trans hp), he.car, if_pos (by rw [hp]; rfl)]
        simp only [ok_bind, St.rd_ok (h.valid hpe), St.rd_ok (h.valid' hpe)]
        rw [hce.tag]
        split
        · rename_i ht
          rw [hce.cdr (by rw [ht]; rfl) (by rw [ht]; nofun), if_neg (by rw [ht]; nofun)]
          exact makeChar_sim h _
        · split
          · rename_i ht
            rw [hce.cdr (by rw [ht]; rfl) (by rw [ht]; nofun), if_neg (by rw [ht]; nofun)]
            exact makeNumber_sim h _
          · exact Sim.ok h hpe
      · have hd := he.cdr (by rw [hp]; rfl) (by rw [hp]; nofun)
        rw [if_neg (by rw [hp]; nofun)] at hd
        rw [if_neg (by rw [hp]; nofun), if_neg (by rw [he.tag, hp]; nofun)]
        simp only [ok_bind, St.rd_ok v1, St.rd_ok v2, he.tag, hp, hd]
        exact makeNumber_sim h _
      · have hd := he.cdr (by rw [hp]; rfl) (by rw [hp]; nofun)
        rw [if_neg (by rw [hp]; nofun)] at hd
        rw [if_neg (by rw [hp]; nofun), if_neg (by rw [he.tag, hp]; nofun)]
        simp only [ok_bind, St.rd_ok v1, St.rd_ok v2, he.tag, hp, hd]
        exact makeChar_sim h _
    · simp only [hi, if_false]; trivial
  · simp only [assert, ht, if_false]; trivial

/-- The result of `fetch`, when it is a cell of the record itself. -/
theorem builtinP_sim (h : Rel M P f s s') {v v' : Int} (hv : At P f v v') :
    SimR M P f (fun P f p p' => p.1 = p'.1 ∧ Rel M P f p.2 p'.2) (builtinP s v) (builtinP s' v') := by
  obtain ⟨v1, v2⟩ := h.atValid hv
  simp only [builtinP, St.rd_ok v1, St.rd_ok v2, ok_bind, h.atTag hv]
  split
  · refine (structRef_sim h 2 hv).bindAt fun P' f' r r' t t' h1 h2 _ _ => ?_
    refine .inr ⟨P', f', _, rfl, ⟨?_, h1⟩, fun _ ha => ⟨ha, rfl⟩⟩
    exact decide_eq_decide.2 (by rw [h1.atConst h2 (by decide) (by decide)])
  · exact .inr ⟨P, f, _, rfl, ⟨rfl, h⟩, fun _ ha => ⟨ha, rfl⟩⟩

/-! ### Association lists -/

/-- What `assq` looks at when it looks for `x`. -/
inductive Scan (s : St) (x : Int) : Int → Prop
  | nil : Scan s x c_nil
  | here {a : Int} (ht : (s.cell a).tag = .pair) (hk : (s.cell (s.cell a).car).tag = .pair) (hx : (s.cell (s.cell a).car).car = x) : Scan s x a
  | next {a : Int} (ht : (s.cell a).tag = .pair) (hk : (s.cell (s.cell a).car).tag = .pair) (h : Scan s x (s.cell a).cdr) : Scan s x a

theorem _root_.Mes.Spec.Assq.scan {W : Ghost} {x r : Int} {o : Option Int} (h : Assq s W x r o) : Scan s x r := by
  induction h with
  | nil => exact .nil
  | here hr _ ht _ hx => exact .here hr.tag ht hx
  | next hr _ ht _ _ _ ih => exact .next hr.tag ht ih

theorem _root_.Mes.Spec.Items.scan {N : Int → Prop} {x p : Int} {L : List (Int × Int)} (h : Items s N p (L.map (·.2)))
    (he : ∀ e ∈ L, (s.cell e.2).tag = .pair) : Scan s x p := by
  induction L generalizing p with
  | nil => cases h; exact .nil
  | cons e L ih =>
    rw [List.map_cons] at h
    generalize hl : e.2 :: L.map (·.2) = ll at h
    cases h with
    | nil => cases hl
    | cons h1 h2 =>
      injection hl with l1 l2
      subst l2
      exact .next h1.tag (by rw [← l1]; exact he e (.head _)) (ih h2 fun e he' => he e (.tail _ he'))

theorem assqPtr_sim (h : Rel M P f s s') {x x' : Int} (hx : At P f x x') {a : Int} (hs : Scan s x a) :
    ∀ {a'} fuel, At P f a a' → SimV (At P f) (assqPtr s x fuel a) (assqPtr s' x' fuel a') := by
  induction hs with
  | nil =>
    intro a' fuel ha
    cases fuel with
    | zero => trivial
    | succ fuel =>
      simp only [assqPtr, h.atConst ha (c := c_nil) (by decide) (by decide), if_true]
      exact ⟨_, rfl, h.atFixed (by decide) (by decide)⟩
  | @here a ht hk hx0 =>
    intro a' fuel ha
    cases fuel with
    | zero => trivial
    | succ fuel =>
      have hp := h.pairs ha ht
      have hq := h.pairs hp.car hk
      simp only [assqPtr, h.atConst ha (c := c_nil) (by decide) (by decide), St.rd_ok hp.valid, St.rd_ok hp.valid',
        St.car_ok hq.valid, St.car_ok hq.valid', ok_bind, h.atEq hx hq.car, hx0, if_true]
      split
      · exact ⟨_, rfl, h.atFixed (by decide) (by decide)⟩
      · exact ⟨_, rfl, hp.car⟩
  | @next a ht hk _ ih =>
    intro a' fuel ha
    cases fuel with
    | zero => trivial
    | succ fuel =>
      have hp := h.pairs ha ht
      have hq := h.pairs hp.car hk
      simp only [assqPtr, h.atConst ha (c := c_nil) (by decide) (by decide), St.rd_ok hp.valid, St.rd_ok hp.valid',
        St.car_ok hq.valid, St.car_ok hq.valid', ok_bind, h.atEq hx hq.car]
      split
      · exact ⟨_, rfl, h.atFixed (by decide) (by decide)⟩
      · split
        · exact ⟨_, rfl, hp.car⟩
        · exact ih fuel hp.cdr

theorem assq_sim (h : Rel M P f s s') {x x' a a' : Int} (hx : At P f x x') (ht : (s.cell x).tag = .symbol) (ha : At P f a a')
    (hs : Scan s x a) (fuel : Nat) : SimV (At P f) (assq s fuel x a) (assq s' fuel x' a') := by
  obtain ⟨v1, v2⟩ := h.atValid ha
  obtain ⟨v3, v4⟩ := h.atValid hx
  simp only [assq, St.rd_ok v1, St.rd_ok v2, St.rd_ok v3, St.rd_ok v4, ok_bind, h.atTag ha, h.atTag hx, ht, true_or, if_true]
  split
  · exact ⟨_, rfl, h.atFixed (by decide) (by decide)⟩
  · exact assqPtr_sim h hx hs fuel ha

/-! ### Global variables -/

theorem Rel.atBytes (h : Rel M P f s s') {z z' : Int} (hz : At P f z z') : (s'.cell z').bytes = (s.cell z).bytes := by
  obtain ⟨hz, rfl⟩ := hz
  have cz := h.iso.cell z hz
  by_cases ht : (s.cell z).tag = .bytes
  · exact cz.bytes ht
  · rw [h.sound.blank z hz ht, h.sound'.blank (f z) ⟨z, hz, rfl⟩ (by rw [cz.tag]; exact ht)]

theorem hashq_sim (h : Rel M P f s s') {x x' : Int} (n : Int) (hx : At P f x x') (ht : (s.cell x).tag = .symbol) :
    SimV Eq (hashq_ s x n) (hashq_ s' x' n) := by
  obtain ⟨v3, v4⟩ := h.atValid hx
  have hd : At P f (s.cell x).cdr (s'.cell x').cdr := by
    obtain ⟨hx, rfl⟩ := hx
    exact ⟨h.closed.cdr x hx (by rw [ht]; rfl), by rw [(h.iso.cell x hx).cdr (by rw [ht]; rfl) (by rw [ht]; nofun), if_pos (by rw [ht]; rfl)]⟩
  obtain ⟨v1, v2⟩ := h.atValid hd
  simp only [hashq_, St.rd_ok v3, St.rd_ok v4, ok_bind, h.atTag hx, ht, or_true, if_true, St.bytes, St.rd_ok v1, St.rd_ok v2, h.atBytes hd]
  exact SimV.refl _

variable {W : Ghost} {mes : Bool} {σ : Store} {N : Idents} {ρ : Locals}

theorem Rel.atVector (h : Rel M P f s s') {v v' : Int} (i : Nat) (hv : At P f v v') : Sim M P f (vectorRef s v i) (vectorRef s' v' i) := by
  obtain ⟨hv, rfl⟩ := hv; exact vectorRef_sim h i hv

theorem Rel.number (h : Rel M P f s s') {a a' : Int} (ha : At P f a a') (ht : (s.cell a).tag = .number) :
    (s'.cell a').cdr = (s.cell a).cdr := by
  obtain ⟨ha, rfl⟩ := ha
  rw [(h.iso.cell a ha).cdr (by rw [ht]; rfl) (by rw [ht]; nofun), if_neg (by rw [ht]; nofun)]

theorem hashqGetHandle_sim (h : Rel M P f s s') {t t' x x' : Int} {n : Nat} {H : List (Int × Int)} (hg : Globals s W t n H)
    (hw : World s W mes σ) (hx : IsName s W x) (hr : Room s 1) (fuel : Nat) (ht : At P f t t') (hx' : At P f x x') :
    Sim M P f (hashqGetHandle s fuel t x c_f) (hashqGetHandle s' fuel t' x' c_f) := by
  have hgr := push_ext s { tag := .number, car := 0, cdr := (n : Int) }
  have hsz := hg.size_ok hr
  have h' := hgr.grow.globals hg
  have hw' := hw.grow hgr.grow rfl
  have hxl := hx.later (hgr.grow.later W)
  have hfree := hr.free_valid { tag := .number, car := 0, cdr := (n : Int) }
  obtain ⟨v, e1, e2⟩ := hashq_ok hxl.text (.inl hxl.tag) hxl.ascii hg.pos hg.small
  have hsl := slot_lt (n := n) (W.name x) hg.pos
  have hu : (s.push { tag := .number, car := 0, cdr := (n : Int) }).Valid c_unspecified ∧
      ((s.push { tag := .number, car := 0, cdr := (n : Int) }).cell c_unspecified).tag = .special :=
    World.fixed_cell hw' (by decide) (by decide)
  unfold hashqGetHandle
  refine (structRef_sim h 3 ht).bindAt fun P1 f1 r r' s1 s1' h1 hr1 m1 q1 => ?_
  rw [show ((3 : Nat) : Int) = 3 from rfl, hsz] at q1
  cases q1
  have hcell : (s.push { tag := .number, car := 0, cdr := (n : Int) }).cell s.free = { tag := .number, car := 0, cdr := (n : Int) } := by simp
  generalize s.push { tag := .number, car := 0, cdr := (n : Int) } = s1 at *
  obtain ⟨w1, w2⟩ := h1.atValid hr1
  have hnum : (s1'.cell r').cdr = n := by rw [h1.number hr1 (by rw [hcell]), hcell]
  simp only [St.cdr_ok w1, St.cdr_ok w2, ok_bind, hcell, hnum]
  have hh := hashq_sim h1 (n : Int) (hx'.mono m1) hxl.tag
  rw [e1] at hh
  obtain ⟨_, hh, rfl⟩ := hh
  simp only [e1, hh, ok_bind]
  refine (structRef_sim h1 4 (ht.mono m1)).bindAt fun P2 f2 b b' s2 s2' h2 hb2 m2 q2 => ?_
  rw [show ((4 : Nat) : Int) = 4 from rfl, h'.buckets_ok] at q2
  cases q2
  rw [e2]
  refine (h2.atVector _ hb2).bindAt fun P3 f3 b b' s3 s3' h3 hb3 m3 q3 => ?_
  rw [h'.bucket_ok hu hsl] at q3
  cases q3
  obtain ⟨z1, z2⟩ := h3.atValid hb3
  have hF := World.false_ hw'
  have hF' := h3.atFixed (c := c_f) (by decide) (by decide)
  simp only [St.rd_ok hF.1, St.rd_ok (h3.atValid hF').2, ok_bind, St.rd_ok z1, St.rd_ok z2, h3.atTag hF', h3.atTag hb3, hF.2]
  split
  · obtain ⟨b1, b2⟩ := h'.bucket_cases hu hsl
    rcases b2 with ⟨b2, b3⟩ | ⟨b2, b3, b4⟩
    · rename_i hc; rw [b3] at hc; cases hc
    · have hsc := b4.scan (x := x) fun e he => (h'.entry e (List.mem_filter.1 he).1).2.1
      exact (assq_sim h3 (((hx'.mono m1).mono m2).mono m3) hxl.tag hb3 hsc fuel).simS fun r r' _ hr => Sim.okAt h3 hr
  · exact Sim.okAt h3 hF'

theorem moduleVariable_sim (h : Rel M P f s s') {x x' r r' : Int} (hw : World s W mes σ) (he : IsEnv s W N r ρ) (hx : IsName s W x)
    (hn : N x) (hr : Room s 1) (fuel : Nat) (hr' : At P f r r') (hx' : At P f x x') :
    Sim M P f (moduleVariable s fuel r x) (moduleVariable s' fuel r' x') := by
  obtain ⟨m1, m2, m3, m4, m5, m6, m7⟩ := hw.module
  obtain ⟨n, H, hg, hH⟩ := hw.table
  have hsr : structRef s s.m0 5 = ok ((s.cell ((s.cell s.m0).cdr + 5)).car, s) := by
    simp only [structRef, St.rd_ok m1, ok_bind, assert_true m2, assert_true m3]
    exact fetch_ref m5 m6 rfl hg.valid (by rw [hg.tag]; decide)
  unfold moduleVariable
  refine (assq_sim h hx' hx.tag hr' (he x hn).1.scan fuel).simS fun y y' _ hy => ?_
  simp only [h.atConst hy (c := c_f) (by decide) (by decide)]
  split
  · refine (structRef_sim h 5 h.atM).bindAt fun P1 f1 g g' s1 s1' h1 hg1 m1 q1 => ?_
    rw [show ((5 : Nat) : Int) = 5 from rfl, hsr] at q1
    cases q1
    exact (hashqGetHandle_sim h1 hg hw hx hr fuel hg1 (hx'.mono m1))
  · exact Sim.okAt h hy

/-- What a lookup finds is a pair. -/
theorem moduleVariable_pair {x r : Int} (hw : World s W mes σ) (he : IsEnv s W N r ρ) (hx : IsName s W x) (hn : N x) (hr : Room s 1) :
    ∃ F, ∀ fuel, F ≤ fuel → ∀ y t, moduleVariable s fuel r x = ok (y, t) → y = c_f ∨ (t.cell y).tag = .pair := by
  obtain ⟨F, s1, e1, e2, e3⟩ := moduleVariable_ok hw he hx hn hr
  refine ⟨F, fun fuel hf y t e => ?_⟩
  rw [e3 fuel hf] at e
  cases e
  cases hl : σ.find ρ x with
  | none => exact .inl rfl
  | some l => exact .inr ((hw.grow e1.grow e1.consts.m0).pair l (find_lt hw he hn hl)).2

theorem moduleRef_sim {x r : Int} (hw : World s W mes σ) (he : IsEnv s W N r ρ) (hx : IsName s W x) (hn : N x) (hr : Room s 1) :
    ∃ F, ∀ fuel, F ≤ fuel → ∀ M P f s' x' r', Rel M P f s s' → At P f x x' → At P f r r' →
      Sim M P f (moduleRef s fuel r x) (moduleRef s' fuel r' x') := by
  obtain ⟨F, hF⟩ := moduleVariable_pair hw he hx hn hr
  refine ⟨F, fun fuel hf M P f s' x' r' h hx' hr' => ?_⟩
  unfold moduleRef
  refine (moduleVariable_sim h hw he hx hn hr fuel hr' hx').bindAt fun P1 f1 y y' t t' h1 hy m1 q1 => ?_
  simp only [h1.atConst hy (c := c_f) (by decide) (by decide)]
  split
  · exact Sim.okAt h1 (h1.atFixed (by decide) (by decide))
  · rename_i hne
    have hp := h1.pairs hy ((hF fuel hf y t q1).resolve_left hne)
    simp only [St.cdr_ok hp.valid, St.cdr_ok hp.valid', ok_bind]
    exact Sim.okAt h1 hp.cdr

theorem assertDefined_sim (h : Rel M P f s s') {a a' : Int} (ha : At P f a a') : SimV (At P f) (assertDefined a) (assertDefined a') := by
  simp only [assertDefined, h.atConst ha (c := c_undefined) (by decide) (by decide)]
  split
  · exact rfl
  · exact ⟨_, rfl, ha⟩

theorem moves_var (x : Int) (gp mp : Option Bool) (hw : World s W mes σ) (he : IsEnv s W N s.r0 ρ) (hx : IsName s W s.r1) (hn : N s.r1)
    (hr : Room s 1) : Moves K ⟨.eval, s, x, gp, mp⟩ := by
  obtain ⟨F, hF⟩ := moduleRef_sim hw he hx hn hr
  refine .sameFuel F fun fuel hf M P f s' x' hm h => ?_
  obtain ⟨v1, v2⟩ := h.atValid h.at1
  simp only [step, St.rd_ok v1, St.rd_ok v2, ok_bind, h.atTag h.at1, hx.tag,
    h.atConst h.at1 (c := c_symbol_boot_module) (by decide) (by decide),
    h.atConst h.at1 (c := c_symbol_current_module) (by decide) (by decide), h.atConst h.at1 (c := c_symbol_begin) (by decide) (by decide),
    h.atConst h.at1 (c := c_symbol_call_with_current_continuation) (by decide) (by decide)]
  split
  · exact sim_go (by decide) hm h
  · refine (hF fuel hf M P f s' _ _ h h.at1 h.at0).bindAt fun P1 f1 y y' t t' h1 hy m1 q1 => ?_
    exact (assertDefined_sim h1 hy).simS fun z z' _ hz => sim_go (by decide) hm (h1.setR1 hm hz)

/-- The symbols that stand for themselves. -/
theorem moves_reserved (x : Int) (gp mp : Option Bool) (ht : (s.cell s.r1).tag = .symbol)
    (hx : s.r1 = c_symbol_boot_module ∨ s.r1 = c_symbol_current_module ∨ s.r1 = c_symbol_begin
      ∨ s.r1 = c_symbol_call_with_current_continuation) : Moves K ⟨.eval, s, x, gp, mp⟩ :=
  .same (by decide) fun fuel M P f s' x' hm h => by
    obtain ⟨v1, v2⟩ := h.atValid h.at1
    simp only [step, St.rd_ok v1, St.rd_ok v2, ok_bind, h.atTag h.at1, ht,
      h.atConst h.at1 (c := c_symbol_boot_module) (by decide) (by decide),
      h.atConst h.at1 (c := c_symbol_current_module) (by decide) (by decide), h.atConst h.at1 (c := c_symbol_begin) (by decide) (by decide),
      h.atConst h.at1 (c := c_symbol_call_with_current_continuation) (by decide) (by decide)]
    rw [if_pos hx, if_pos hx]
    exact sim_go (by decide) hm h

/-- An expanded variable: the cell of its binding is the same in both memories. -/
theorem Rel.atGlobal (h : Rel M P f s s') {a a' : Int} (ha : At P f a a') (ht : (s.cell a).tag = .variable) :
    At P f (s.cell a).car (s'.cell a').car := by
  obtain ⟨ha, rfl⟩ := ha
  have hc := h.iso.cell a ha
  exact ⟨h.closed.car a ha (by rw [ht]; rfl), by rw [hc.car, if_pos (by rw [ht]; rfl)]⟩

theorem moves_global (x : Int) (gp mp : Option Bool) (ht : (s.cell s.r1).tag = .variable)
    (hp : (s.cell (s.cell s.r1).car).tag = .pair) : Moves K ⟨.eval, s, x, gp, mp⟩ :=
  .same (by decide) fun fuel M P f s' x' hm h => by
    obtain ⟨v1, v2⟩ := h.atValid h.at1
    have hb := h.pairs (h.atGlobal h.at1 ht) hp
    simp only [step, St.rd_ok v1, St.rd_ok v2, ok_bind, h.atTag h.at1, ht, St.cdr_ok hb.valid, St.cdr_ok hb.valid']
    exact sim_go (by decide) hm (h.setR1 hm hb.cdr)

theorem moves_evalSetGlobal (x : Int) (gp mp : Option Bool) (h2 : (s.cell s.r2).tag = .pair) (h3 : (s.cell (s.cell s.r2).cdr).tag = .pair)
    (ht : (s.cell (s.cell (s.cell s.r2).cdr).car).tag = .variable)
    (hb : (s.cell (s.cell (s.cell (s.cell s.r2).cdr).car).car).tag = .pair) : Moves K ⟨.evalSetX, s, x, gp, mp⟩ := by
  refine .same (by decide) fun fuel M P f s' x' hm h => ?_
  have hp := h.pairs h.at2 h2
  have hp2 := h.pairs hp.cdr h3
  obtain ⟨v1, v2⟩ := h.atValid hp2.car
  have hz := h.atGlobal hp2.car ht
  have hb := h.pairs hz hb
  simp only [step, St.cdr_ok hp.valid, St.cdr_ok hp.valid', St.car_ok hp2.valid, St.car_ok hp2.valid', ok_bind, setEnvX,
    St.rd_ok v1, St.rd_ok v2, h.atTag hp2.car, ht, if_true, St.rd_ok hb.valid, St.rd_ok hb.valid', hb.tag, hb.tag', ne_eq, not_true, if_false]
  rw [hz.2, h.at1.2]
  exact Sim.bindAt (setCdrX_sim h hz.1 h.at1.1) fun _ _ _ _ _ _ h2 hr2 _ _ => sim_go (by decide) hm (h2.setR1 hm hr2)

theorem moves_evalSet (x : Int) (gp mp : Option Bool) (hw : World s W mes σ) (he : IsEnv s W N s.r0 ρ)
    (h2 : (s.cell s.r2).tag = .pair) (h3 : (s.cell (s.cell s.r2).cdr).tag = .pair)
    (hx : IsName s W (s.cell (s.cell s.r2).cdr).car) (hn : N (s.cell (s.cell s.r2).cdr).car)
    (hr : Room s 1) : Moves K ⟨.evalSetX, s, x, gp, mp⟩ := by
  refine .sameFuel 0 fun fuel hf M P f s' x' hm h => ?_
  have hp := h.pairs h.at2 h2
  have hp2 := h.pairs hp.cdr h3
  obtain ⟨v1, v2⟩ := h.atValid hp2.car
  simp only [step, St.cdr_ok hp.valid, St.cdr_ok hp.valid', St.car_ok hp2.valid, St.car_ok hp2.valid', ok_bind, setEnvX,
    St.rd_ok v1, St.rd_ok v2, h.atTag hp2.car, hx.tag, reduceCtorEq, if_false]
  simp only [Res.bind_assoc']
  refine (moduleVariable_sim h hw he hx hn hr fuel h.at0 hp2.car).bindAt fun P1 f1 y y' t t' h1 hy m1 q1 => ?_
  refine (assertDefined_sim h1 hy).simS fun z z' _ hz => ?_
  obtain ⟨v1, v2⟩ := h1.atValid hz
  simp only [ok_bind, St.rd_ok v1, St.rd_ok v2, h1.atTag hz]
  split
  · exact .err _
  · obtain ⟨hz, rfl⟩ := hz
    have ha := h.at1.mono m1
    rw [ha.2]
    exact Sim.bindAt (setCdrX_sim h1 hz ha.1) fun _ _ _ _ _ _ h2 hr2 _ _ => sim_go (by decide) hm (h2.setR1 hm hr2)

end Mes.Gc
