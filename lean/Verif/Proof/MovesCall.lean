import Verif.Proof.MovesEnv
/-
Splicing and procedure calls in corresponding memories.
-/
namespace Mes.Gc
open Res Spec
variable {M : Mode} {P P' : Int → Prop} {f f' : Int → Int} {s s' t t' : St} {K : Calls}

/-! ### `append2` -/

theorem revOnto_sim {as : List Int} : ∀ {P f s s' x x' r r'}, Rel M P f s s' → Chain s x as c_nil → Room s as.length → At P f x x' → At P f r r' →
    ∀ fuel, Sim M P f (revOnto fuel s x r) (revOnto fuel s' x' r') := by
  induction as with
  | nil =>
    intro P f s s' x x' r r' h hc _ hx hr fuel
    cases hc
    cases fuel with
    | zero => trivial
    | succ fuel =>
      simp only [revOnto, h.atConst hx (c := c_nil) (by decide) (by decide), if_true]
      exact Sim.okAt h hr
  | cons a as ih =>
    intro P f s s' x x' r r' h hc hroom hx hr fuel
    cases hc with
    | cons hne hv ht hc =>
      cases fuel with
      | zero => trivial
      | succ fuel =>
        simp only [List.length_cons, Int.natCast_add, Int.cast_ofNat_Int] at hroom
        have hp := h.pairs hx ht
        simp only [revOnto, h.atConst hx (c := c_nil) (by decide) (by decide), if_neg hne, St.rd_ok hp.valid, St.rd_ok hp.valid', ok_bind]
        refine (h.cons hp.car hr).bindAt fun P1 f1 r1 r1' t t' h1 hr1 m1 q1 => ?_
        rw [cons_ok (hroom.mono (by omega))] at q1
        cases q1
        have hext := push_ext s { tag := .pair, car := (s.cell a).car, cdr := r }
        have e := hext.same a hv.2 id
        have hp1 := h1.pairs (hx.mono m1) (by rw [e]; exact ht)
        simp only [St.cdr_ok hp1.valid, St.cdr_ok hp1.valid', ok_bind]
        have hd := hp1.cdr
        rw [e] at hd ⊢
        exact ih h1 (hc.ext hext) (hroom.push _) hd hr1 fuel

theorem reverseXLoop_sim {as : List Int} : ∀ {s s' x x' r r'}, Rel M P f s s' → Chain s x as c_nil → as.Nodup → At P f x x' → At P f r r' →
    ∀ fuel, Sim M P f (reverseXLoop fuel s x r) (reverseXLoop fuel s' x' r') := by
  induction as with
  | nil =>
    intro s s' x x' r r' h hc _ hx hr fuel
    cases hc
    cases fuel with
    | zero => trivial
    | succ fuel =>
      simp only [reverseXLoop, h.atConst hx (c := c_nil) (by decide) (by decide), if_true]
      exact Sim.okAt h hr
  | cons a as ih =>
    intro s s' x x' r r' h hc hnd hx hr fuel
    cases hc with
    | cons hne hv ht hc =>
      cases fuel with
      | zero => trivial
      | succ fuel =>
        have hp := h.pairs hx ht
        simp only [reverseXLoop, h.atConst hx (c := c_nil) (by decide) (by decide), if_neg hne, St.cdr_ok hp.valid, St.cdr_ok hp.valid', ok_bind,
          St.setCdr, St.rd_ok hp.valid, St.rd_ok hp.valid', St.put_ok _ hp.valid, St.put_ok _ hp.valid']
        have hfr := upd_frame s a { s.cell a with cdr := r }
        have hx' : a ∉ as := (List.nodup_cons.1 hnd).1
        have hset := h.setPair hx.1 ht hp.car.1 hr.1
        rw [← hx.2, ← hp.car.2, ← hr.2] at hset
        exact ih hset (hc.frame hfr (fun b hb e => hx' (e ▸ hb))) (List.nodup_cons.1 hnd).2 hp.cdr hx fuel

theorem append2_sim {as : List Int} {x x' y y' : Int} (h : Rel M P f s s') (hc : Chain s x as c_nil) (hroom : Room s as.length)
    (hx : At P f x x') (hy : At P f y y') {fuel : Nat} (hf : as.length < fuel) : Sim M P f (append2 s fuel x y) (append2 s' fuel x' y') := by
  by_cases hne : x = c_nil
  · simp only [append2, h.atConst hx (c := c_nil) (by decide) (by decide), if_pos hne]
    exact Sim.okAt h hy
  · have ht : (s.cell x).tag = .pair := by
      cases hc with
      | nil => exact absurd rfl hne
      | cons _ _ ht => exact ht
    have hp := h.pairs hx ht
    simp only [append2, h.atConst hx (c := c_nil) (by decide) (by decide), if_neg hne, St.rd_ok hp.valid, St.rd_ok hp.valid', ok_bind,
      hp.tag, hp.tag', ne_eq, not_true_eq_false, if_false]
    refine (revOnto_sim h hc hroom hx (h.atFixed (c := c_nil) (by decide) (by decide)) fuel).bindAt fun P1 f1 r1 r1' t t' h1 hr1 m1 q1 => ?_
    obtain ⟨r2, t2, bs, g1, g2, g3, g4, g5, g6⟩ := revOnto_ok (r := c_nil) hc hf hroom
    rw [g1] at q1
    cases q1
    obtain ⟨w1, w2⟩ := h1.atValid hr1
    simp only [reverseX, ne_eq, h1.atConst hr1 (c := c_nil) (by decide) (by decide), St.rd_ok w1, St.rd_ok w2, ok_bind, h1.atTag hr1]
    split
    · split
      · exact .err _
      · exact reverseXLoop_sim h1 g3 g3.nodup hr1 (hy.mono m1) fuel
    · exact Sim.okAt h1 (hy.mono m1)

theorem moves_beginSplice (x : Int) (gp mp : Option Bool) (ht : (s.cell s.r1).tag = .pair) {as : List Int}
    (hc : (s.cell (s.cell s.r1).car).tag = .pair ∧ (s.cell (s.cell s.r1).car).car = c_symbol_begin →
      Chain s (s.cell (s.cell s.r1).car).cdr as c_nil ∧ Room s as.length) : Moves K ⟨.beginSplice, s, x, gp, mp⟩ := by
  refine .sameFuel (as.length + 1) fun fuel hf M P f s' x' he h => ?_
  have hp := h.pairs h.at1 ht
  obtain ⟨v1, v2⟩ := h.atValid hp.car
  have e : ((s'.cell (s'.cell s'.r1).car).tag = .pair ∧ (s'.cell (s'.cell s'.r1).car).car = c_symbol_begin) =
      ((s.cell (s.cell s.r1).car).tag = .pair ∧ (s.cell (s.cell s.r1).car).car = c_symbol_begin) := by
    refine propext ?_
    rw [h.atTag hp.car]
    refine and_congr_right fun hq => ?_
    have := h.pairs hp.car hq
    rw [h.atConst this.car (by decide) (by decide)]
  simp only [step, St.rd_ok hp.valid, St.rd_ok hp.valid', ok_bind, hp.tag, hp.tag', if_true, St.rd_ok v1, St.rd_ok v2, e]
  split
  · rename_i hb
    have hp2 := h.pairs hp.car hb.1
    obtain ⟨c1, c2⟩ := hc hb
    exact (append2_sim h c1 c2 hp2.cdr hp.cdr (by omega)).bindAt fun P1 f1 r r' t t' h1 hr1 m1 q1 => sim_go (by decide) he (h1.setR1 he hr1)
  · exact sim_go (by decide) he h

/-! ### Procedures -/

theorem length_sim (h : Rel M P f s s') {x x' : Int} (hx : At P f x x') (fuel : Nat) :
    SimV Eq (length__ s fuel x) (length__ s' fuel x') := by
  rw [hx.2]; exact lengthLoop_sim h fuel 0 x hx.1

theorem checkFormals_sim (h : Rel M P f s s') {x x' y y' : Int} (hx : At P f x x') (hy : At P f y y') (fuel : Nat) :
    SimV (fun _ _ => True) (checkFormals s fuel x y) (checkFormals s' fuel x' y') := by
  obtain ⟨v1, v2⟩ := h.atValid hx
  simp only [checkFormals, St.rd_ok v1, St.rd_ok v2, ok_bind, h.atTag hx]
  split
  · rename_i ht
    rw [h.number hx ht]
    refine (length_sim h hy fuel).bind fun b b' _ e => ?_
    subst e
    split
    · exact rfl
    · exact ⟨_, rfl, trivial⟩
  · refine (length_sim h hx fuel).bind fun a a' _ e => ?_
    subst e
    refine (length_sim h hy fuel).bind fun b b' _ e => ?_
    subst e
    split
    · exact rfl
    · exact ⟨_, rfl, trivial⟩

theorem atCarP (h : Rel M P f s s') {x x' : Int} (hx : At P f x x') : SimV (At P f) (carP s x) (carP s' x') := by
  rw [hx.2]; exact carP_sim h hx.1
theorem atCdrP (h : Rel M P f s s') {x x' : Int} (hx : At P f x x') : SimV (At P f) (cdrP s x) (cdrP s' x') := by
  rw [hx.2]; exact cdrP_sim h hx.1

theorem pairlis_sim (fuel : Nat) : ∀ {P f s s' x x' y y' a a'}, Rel M P f s s' → At P f x x' → At P f y y' → At P f a a' →
    Sim M P f (pairlis fuel s x y a) (pairlis fuel s' x' y' a') := by
  induction fuel with
  | zero => intros; trivial
  | succ fuel ih =>
    intro P f s s' x x' y y' a a' h hx hy ha
    obtain ⟨v1, v2⟩ := h.atValid hx
    simp only [pairlis, h.atConst hx (c := c_nil) (by decide) (by decide), St.rd_ok v1, St.rd_ok v2, ok_bind, h.atTag hx]
    split
    · exact Sim.okAt h ha
    · split
      · exact (h.cons hx hy).bindAt fun P1 f1 r r' t t' h1 hr1 m1 q1 => h1.cons hr1 (ha.mono m1)
      · refine (atCarP h hx).simS fun x0 x0' _ hx0 => ?_
        refine (atCarP h hy).simS fun y0 y0' _ hy0 => ?_
        refine (h.cons hx0 hy0).bindAt fun P1 f1 p p' t t' h1 hp m1 q1 => ?_
        refine (atCdrP h1 (hx.mono m1)).simS fun x1 x1' _ hx1 => ?_
        refine (atCdrP h1 (hy.mono m1)).simS fun y1 y1' _ hy1 => ?_
        refine Sim.bindAt (ih h1 hx1 hy1 (ha.mono m1)) fun P2 f2 r r' t2 t2' h2 hr m2 q2 => ?_
        exact h2.cons (hp.mono m2) hr

theorem callLambda_sim (h : Rel M P f s s') (he : ¬ M.exact) {e e' x x' : Int} (h1 : At P f e e') (h2 : At P f x x') :
    SimS M P f (callLambda s e x) (callLambda s' e' x') := by
  simp only [callLambda]
  refine (h.cons (h.atFixed (c := c_closure) (by decide) (by decide)) h2).bindAt fun P1 f1 p p' t t' i1 hp m1 _ => ?_
  refine (i1.cons hp (h2.mono m1)).bindAt fun P2 f2 q q' t t' i2 hq m2 _ => ?_
  exact SimS.ok (i2.setR10 he ((h1.mono m1).mono m2) hq)

/-- The procedure in the topmost frame. -/
theorem Rel.proc (h : Rel M P f s s') (ht : s.sp + 5 ≤ s.stackSize) {a a' : Int} (ha : At P f a a') :
    Rel M P f (s.proc a) (s'.proc a') ∧ s'.setStack (s'.sp + 4) a' = ok (s'.proc a') := by
  obtain ⟨ha, rfl⟩ := ha
  have e1 := h.iso.sp
  have e2 := h.iso.stackSize
  have hs := h.sound'.sp
  constructor
  · have := h.setStack (i := s'.sp + 4) ha
    have e : s'.sp + 4 + M.deeper = s.sp + 4 := by omega
    rw [e] at this
    exact this
  · simp only [St.setStack]
    rw [if_pos (by omega)]
    rfl

theorem setStack_proc (h0 : 0 ≤ s.sp) (ht : s.sp + 5 ≤ s.stackSize) (a : Int) : s.setStack (s.sp + 4) a = ok (s.proc a) := by
  simp only [St.setStack]
  rw [if_pos (by omega)]
  rfl

/-- The start of `apply:` for what is no builtin. -/
theorem builtinP_not (h : Rel M P f s s') {x x' : Int} (hx : At P f x x') (ht : (s.cell x).tag ≠ .struct) :
    builtinP s x = ok (false, s) ∧ builtinP s' x' = ok (false, s') :=
  ⟨builtinP_no (h.atValid hx).1 ht, builtinP_no (h.atValid hx).2 (by rw [h.atTag hx]; exact ht)⟩

/-- An operator that has to be evaluated again. -/
theorem moves_applyEval (x : Int) (gp mp : Option Bool) (htop : s.sp + 5 ≤ s.stackSize) (hp : (s.cell s.r1).tag = .pair)
    (h1 : (s.cell (s.cell s.r1).car).tag ≠ .struct) (h2 : (s.cell (s.cell s.r1).car).tag ≠ .closure)
    (h3 : (s.cell (s.cell s.r1).car).tag ≠ .continuation) (h4 : (s.cell (s.cell s.r1).car).tag ≠ .special)
    (h5 : (s.cell (s.cell s.r1).car).tag = .symbol → (s.cell s.r1).car ≠ c_symbol_call_with_current_continuation ∧
      (s.cell s.r1).car ≠ c_symbol_call_with_values ∧ (s.cell s.r1).car ≠ c_symbol_current_module ∧ (s.cell s.r1).car ≠ c_symbol_boot_module)
    (h6 : (s.cell (s.cell s.r1).car).tag = .pair → (s.cell (s.cell s.r1).car).car ≠ c_symbol_lambda) : Moves K ⟨.apply, s, x, gp, mp⟩ := by
  refine .same (by decide) fun fuel M P f s' x' he h => ?_
  have hq := h.pairs h.at1 hp
  obtain ⟨i1, i2⟩ := h.proc htop hq.car
  obtain ⟨v1, v2⟩ := h.atValid hq.car
  obtain ⟨w1, w2⟩ := i1.atValid hq.car
  obtain ⟨b1, b2⟩ := builtinP_not i1 hq.car h1
  have tg := h.atTag hq.car
  have e : (s.proc (s.cell s.r1).car).cell = s.cell := rfl
  have e' : (s'.proc (s'.cell s'.r1).car).cell = s'.cell := rfl
  simp only [step, St.rd_ok hq.valid, St.rd_ok hq.valid', ok_bind, setStack_proc h.sound.sp.1 htop, i2, St.rd_ok w1, St.rd_ok w2, b1, b2,
    Bool.false_eq_true, if_false, e, e', tg]
  have go : SimR M P f (RelVm M)
      (pushCc (s.proc (s.cell s.r1).car) (s.cell s.r1).car s.r1 s.r0 c_vm_apply2 >>= fun t => .ok ⟨.eval, t, x, gp, mp⟩)
      (pushCc (s'.proc (s'.cell s'.r1).car) (s'.cell s'.r1).car s'.r1 s'.r0 c_vm_apply2 >>= fun t => .ok ⟨.eval, t, x', gp, mp⟩) :=
    pushCc_go (by decide) i1 he hq.car i1.at1 i1.at0 (by decide)
  split
  · rename_i hh; exact absurd hh h2
  · rename_i hh; exact absurd hh h3
  · rename_i hh; exact absurd hh h4
  · rename_i hh
    obtain ⟨j1, j2, j3, j4⟩ := h5 hh
    rw [if_neg j1, if_neg j2, if_neg j3, if_neg j4]
    rw [if_neg (by rw [h.atConst hq.car (by decide) (by decide)]; exact j1), if_neg (by rw [h.atConst hq.car (by decide) (by decide)]; exact j2),
      if_neg (by rw [h.atConst hq.car (by decide) (by decide)]; exact j3), if_neg (by rw [h.atConst hq.car (by decide) (by decide)]; exact j4)]
    exact go
  · rename_i hh
    have hq2 := h.pairs hq.car hh
    rw [if_neg (h6 hh), if_neg (by rw [h.atConst hq2.car (by decide) (by decide)]; exact h6 hh)]
    exact go
  · exact go

/-- A lambda expression as operator. -/
theorem moves_applyLambda (x : Int) (gp mp : Option Bool) (htop : s.sp + 5 ≤ s.stackSize) (hp : (s.cell s.r1).tag = .pair)
    (h1 : (s.cell (s.cell s.r1).car).tag = .pair) (h2 : (s.cell (s.cell s.r1).car).car = c_symbol_lambda)
    (h3 : (s.cell (s.cell (s.cell s.r1).car).cdr).tag = .pair) : Moves K ⟨.apply, s, x, gp, mp⟩ := by
  refine .same (by decide) fun fuel M P f s' x' he h => ?_
  have hq := h.pairs h.at1 hp
  obtain ⟨i1, i2⟩ := h.proc htop hq.car
  obtain ⟨w1, w2⟩ := i1.atValid hq.car
  obtain ⟨b1, b2⟩ := builtinP_not i1 hq.car (by show (s.cell (s.cell s.r1).car).tag ≠ _; rw [h1]; decide)
  have hq2 := h.pairs hq.car h1
  have hq3 := i1.pairs hq2.cdr h3
  have e : (s.proc (s.cell s.r1).car).cell = s.cell := rfl
  have e' : (s'.proc (s'.cell s'.r1).car).cell = s'.cell := rfl
  simp only [step, St.rd_ok hq.valid, St.rd_ok hq.valid', ok_bind, setStack_proc h.sound.sp.1 htop, i2, St.rd_ok w1, St.rd_ok w2, b1, b2,
    Bool.false_eq_true, if_false, e, e', h1, hq2.tag', h2, (h.atConst hq2.car (c := c_symbol_lambda) (by decide) (by decide)).mpr h2, if_true,
    St.car_ok hq3.valid, St.car_ok hq3.valid', St.cdr_ok hq3.valid, St.cdr_ok hq3.valid']
  refine Sim.bindAt (pairlis_sim fuel i1 hq3.car hq.cdr i1.at0) fun P1 f1 p p' t t' j1 j2 m1 _ => ?_
  refine (checkFormals_sim j1 (hq3.car.mono m1) (hq.cdr.mono m1) fuel).simS fun _ _ _ _ => ?_
  exact (callLambda_sim j1 he (hq3.cdr.mono m1) j2).bind fun _ _ _ _ k1 _ _ => sim_go (by decide) he k1

/-- A closure as operator. -/
theorem moves_applyClosure (x : Int) (gp mp : Option Bool) (htop : s.sp + 5 ≤ s.stackSize) (hp : (s.cell s.r1).tag = .pair)
    (h1 : (s.cell (s.cell s.r1).car).tag = .closure) (h2 : (s.cell (s.cell (s.cell s.r1).car).cdr).tag = .pair)
    (h3 : (s.cell (s.cell (s.cell (s.cell s.r1).car).cdr).cdr).tag = .pair)
    (h4 : (s.cell (s.cell (s.cell (s.cell s.r1).car).cdr).car).tag = .pair)
    (h5 : (s.cell (s.cell (s.cell (s.cell (s.cell s.r1).car).cdr).car).cdr).tag = .pair) : Moves K ⟨.apply, s, x, gp, mp⟩ := by
  refine .same (by decide) fun fuel M P f s' x' he h => ?_
  have hq := h.pairs h.at1 hp
  obtain ⟨i1, i2⟩ := h.proc htop hq.car
  obtain ⟨w1, w2⟩ := i1.atValid hq.car
  obtain ⟨b1, b2⟩ := builtinP_not i1 hq.car (by show (s.cell (s.cell s.r1).car).tag ≠ _; rw [h1]; decide)
  have hcd : At P f (s.cell (s.cell s.r1).car).cdr (s'.cell (s'.cell s'.r1).car).cdr := by
    obtain ⟨ha, hb⟩ := hq.car
    rw [hb]
    exact ⟨h.closed.cdr _ ha (by rw [h1]; rfl),
      by rw [(h.iso.cell _ ha).cdr (by rw [h1]; rfl) (by rw [h1]; nofun), if_pos (by rw [h1]; rfl)]⟩
  have p2 := h.pairs hcd h2
  have p3 := h.pairs p2.cdr h3
  have p4 := h.pairs p2.car h4
  have p5 := h.pairs p4.cdr h5
  have e : (s.proc (s.cell s.r1).car).cell = s.cell := rfl
  have e' : (s'.proc (s'.cell s'.r1).car).cell = s'.cell := rfl
  simp only [step, St.rd_ok hq.valid, St.rd_ok hq.valid', ok_bind, setStack_proc h.sound.sp.1 htop, i2, St.rd_ok w1, St.rd_ok w2, b1, b2,
    Bool.false_eq_true, if_false, e, e', h1, (h.atTag hq.car).trans h1, applyClosure, St.cdr_ok w1, St.cdr_ok w2,
    St.car_ok (s := s.proc (s.cell s.r1).car) p2.valid, St.car_ok (s := s'.proc (s'.cell s'.r1).car) p2.valid', St.cdr_ok (s := s.proc (s.cell s.r1).car) p2.valid, St.cdr_ok (s := s'.proc (s'.cell s'.r1).car) p2.valid',
    St.car_ok (s := s.proc (s.cell s.r1).car) p3.valid, St.car_ok (s := s'.proc (s'.cell s'.r1).car) p3.valid', St.cdr_ok (s := s.proc (s.cell s.r1).car) p3.valid, St.cdr_ok (s := s'.proc (s'.cell s'.r1).car) p3.valid',
    St.cdr_ok (s := s.proc (s.cell s.r1).car) p4.valid, St.cdr_ok (s := s'.proc (s'.cell s'.r1).car) p4.valid', St.cdr_ok (s := s.proc (s.cell s.r1).car) p5.valid, St.cdr_ok (s := s'.proc (s'.cell s'.r1).car) p5.valid']
  simp only [Res.bind_assoc']
  refine (checkFormals_sim i1 p3.car hq.cdr fuel).simS fun _ _ _ _ => ?_
  refine Sim.bindAt (pairlis_sim fuel i1 p3.car hq.cdr p5.cdr) fun P1 f1 p p' t t' j1 j2 m1 _ => ?_
  exact (callLambda_sim j1 he (p3.cdr.mono m1) j2).bind fun _ _ _ _ k1 _ _ => sim_go (by decide) he k1

/-- `apply` as operator. -/
theorem moves_applyApply (x : Int) (gp mp : Option Bool) (htop : s.sp + 5 ≤ s.stackSize) (hp : (s.cell s.r1).tag = .pair)
    (h1 : (s.cell s.r1).car = c_vm_apply) (h2 : (s.cell c_vm_apply).tag = .special) (h3 : (s.cell (s.cell s.r1).cdr).tag = .pair)
    (h4 : (s.cell (s.cell (s.cell s.r1).cdr).cdr).tag = .pair) : Moves K ⟨.apply, s, x, gp, mp⟩ := by
  refine .same (by decide) fun fuel M P f s' x' he h => ?_
  have hq := h.pairs h.at1 hp
  have hca := h.atFixed (c := c_vm_apply) (by decide) (by decide)
  obtain ⟨i1, i2⟩ := h.proc htop hca
  obtain ⟨w1, w2⟩ := i1.atValid hca
  obtain ⟨b1, b2⟩ := builtinP_not i1 hca (by show (s.cell c_vm_apply).tag ≠ _; rw [h2]; decide)
  have e : (s.proc c_vm_apply).cell = s.cell := rfl
  have e' : (s'.proc c_vm_apply).cell = s'.cell := rfl
  have p3 := h.pairs hq.cdr h3
  have p4 := h.pairs p3.cdr h4
  simp only [step, St.rd_ok hq.valid, St.rd_ok hq.valid', ok_bind, setStack_proc h.sound.sp.1 htop, i2, St.rd_ok w1, St.rd_ok w2, b1, b2,
    Bool.false_eq_true, if_false, e, e', h1, (h.atConst hq.car (c := c_vm_apply) (by decide) (by decide)).mpr h1, h2, (h.atTag hca).trans h2, if_true,
    St.car_ok (s := s.proc c_vm_apply) p3.valid, St.car_ok (s := s'.proc c_vm_apply) p3.valid', St.cdr_ok (s := s.proc c_vm_apply) p3.valid, St.cdr_ok (s := s'.proc c_vm_apply) p3.valid', St.car_ok (s := s.proc c_vm_apply) p4.valid, St.car_ok (s := s'.proc c_vm_apply) p4.valid']
  refine (i1.cons p3.car p4.car).bindAt fun P1 f1 p p' t t' j1 j2 m1 _ => ?_
  exact pushCc_go (by decide) j1 he j2 j1.at1 j1.at0 (by decide)

/-- A constant that is no procedure. -/
theorem moves_applyBad (x : Int) (gp mp : Option Bool) (htop : s.sp + 5 ≤ s.stackSize) (hp : (s.cell s.r1).tag = .pair)
    (h1 : (s.cell (s.cell s.r1).car).tag = .special) (h2 : (s.cell s.r1).car ≠ c_vm_apply) (h3 : (s.cell s.r1).car ≠ c_vm_eval)
    (h4 : (s.cell s.r1).car ≠ c_vm_begin_expand) : Moves K ⟨.apply, s, x, gp, mp⟩ := by
  refine .same (by decide) fun fuel M P f s' x' he h => ?_
  have hq := h.pairs h.at1 hp
  obtain ⟨i1, i2⟩ := h.proc htop hq.car
  obtain ⟨w1, w2⟩ := i1.atValid hq.car
  obtain ⟨b1, b2⟩ := builtinP_not i1 hq.car (by show (s.cell (s.cell s.r1).car).tag ≠ _; rw [h1]; decide)
  have tg := h.atTag hq.car
  have e : (s.proc (s.cell s.r1).car).cell = s.cell := rfl
  have e' : (s'.proc (s'.cell s'.r1).car).cell = s'.cell := rfl
  obtain ⟨f1, f2⟩ := i1.atValid (i1.atFixed (c := c_f) (by decide) (by decide))
  simp only [step, St.rd_ok hq.valid, St.rd_ok hq.valid', ok_bind, setStack_proc h.sound.sp.1 htop, i2, St.rd_ok w1, St.rd_ok w2, b1, b2,
    Bool.false_eq_true, if_false, e, e', h1, tg, h.atConst hq.car (c := c_vm_apply) (by decide) (by decide),
    h.atConst hq.car (c := c_vm_eval) (by decide) (by decide), h.atConst hq.car (c := c_vm_begin_expand) (by decide) (by decide),
    if_neg h2, if_neg h3, if_neg h4, checkApply, St.rd_ok f1, St.rd_ok f2, true_or, if_true, err_bind]
  exact .err _

theorem moves_apply2 (x : Int) (gp mp : Option Bool) (hg : ∀ t, checkApply s s.r1 = ok t → (t.cell t.r2).tag = .pair) :
    Moves K ⟨.apply2, s, x, gp, mp⟩ := by
  refine .same (by decide) fun fuel M P f s' x' he h => ?_
  have hca : SimS M P f (checkApply s s.r1) (checkApply s' s'.r1) := by
    obtain ⟨v1, v2⟩ := h.atValid h.at1
    simp only [checkApply, St.rd_ok v1, St.rd_ok v2, ok_bind, h.atTag h.at1, h.atConst h.at1 (c := c_f) (by decide) (by decide),
      h.atConst h.at1 (c := c_t) (by decide) (by decide), h.atConst h.at1 (c := c_nil) (by decide) (by decide),
      h.atConst h.at1 (c := c_unspecified) (by decide) (by decide), h.atConst h.at1 (c := c_undefined) (by decide) (by decide)]
    split
    · exact .err _
    · split
      · refine (builtinP_sim h h.at1).bind fun P1 f1 p p' hp m1 _ => ?_
        obtain ⟨p, t⟩ := p
        obtain ⟨p', t'⟩ := p'
        obtain ⟨e1, e2⟩ := hp
        dsimp only at e1 e2 ⊢
        subst e1
        split
        · exact SimS.ok e2
        · exact .err _
      · exact SimS.ok h
  simp only [step]
  refine hca.bind fun P1 f1 t t' h1 m1 q1 => ?_
  have hp := h1.pairs h1.at2 (hg t q1)
  simp only [St.cdr_ok hp.valid, St.cdr_ok hp.valid', ok_bind]
  exact cons_go (by decide) h1 he h1.at1 hp.cdr

/-! ### Builtins -/

variable {W : Ghost} {mes : Bool} {σ : Store}

/-- The builtin gives corresponding results in corresponding memories. -/
def MovesBuiltin (builtin : Nat → Int → List Int → St → Res (Int × St)) (mes : Bool) (n id : Int) (vs : List Value) : Prop :=
  ∃ F, ∀ fuel, F ≤ fuel → ∀ s W σ us, World s W mes σ → Passed s W mes n us vs → ∀ M P f s', Rel M P f s s' → (∀ u ∈ us, P u) →
    Sim M P f (builtin fuel id us s) (builtin fuel id (us.map f) s')

theorem firstValue_sim (h : Rel M P f s s') {n a a' : Int} {vs : List Value} (ha : At P f a a') (hv : IsVals s W mes a vs) :
    firstValue s' n a' = ok (a', s') := by
  unfold firstValue
  simp only [ne_eq, h.atConst ha (c := c_nil) (by decide) (by decide)]
  split
  · rename_i hc
    cases hv with
    | nil => exact absurd rfl hc.2
    | cons hp hv _ =>
      have q := h.pairs ha hp.tag
      obtain ⟨v1, v2⟩ := h.atValid q.car
      simp only [St.rd_ok q.valid', ok_bind, St.rd_ok v2, h.atTag q.car, if_neg hv.tag_ne.1]
  · rfl

theorem secondValue_sim (h : Rel M P f s s') {n a a' : Int} {vs : List Value} (ha : At P f a a') (hv : IsVals s W mes a vs) :
    secondValue s' n a' = ok (a', s') := by
  unfold secondValue
  simp only [ne_eq, h.atConst ha (c := c_nil) (by decide) (by decide)]
  split
  · rename_i hc
    cases hv with
    | nil => exact absurd rfl hc.2
    | cons hp hv hvs =>
      have q := h.pairs ha hp.tag
      obtain ⟨v1, v2⟩ := h.atValid q.cdr
      simp only [St.rd_ok q.valid', ok_bind, St.rd_ok v2, h.atTag q.cdr]
      split
      · rename_i ht
        have q2 := h.pairs q.cdr ht
        have hz : (s.cell (s.cell (s.cell a).cdr).car).tag ≠ .values := by
          clear hc q q2 v1 v2
          generalize (s.cell a).cdr = z at hvs ht
          cases hvs with
          | nil =>
            have e := h.sound.fixed c_nil (by decide) (by decide)
            rw [ht, if_pos (by decide)] at e
            cases e
          | cons _ hv _ => exact hv.tag_ne.1
        simp only [St.rd_ok (h.atValid q2.car).2, ok_bind, h.atTag q2.car, if_neg hz]
      · rfl
  · rfl

theorem applyBuiltin_sim (h : Rel M P f s s') {a a' n id args args' : Int} {vs : List Value} (ha : At P f a a') (hargs' : At P f args args')
    (hb : IsBuiltin s W.chg a n id) (hw : World s W mes σ) (hargs : IsVals s W mes args vs) (hn : n = -1 ∨ n = vs.length ∧ vs.length ≤ 3)
    (hr : Room s 2) {fuel : Nat}
    (hB : ∀ s W σ us, World s W mes σ → Passed s W mes n us vs → ∀ P f s', Rel M P f s s' → (∀ u ∈ us, P u) →
      Sim M P f (K.builtin fuel id us s) (K.builtin fuel id (us.map f) s')) :
    Sim M P f (applyBuiltin K s fuel a args) (applyBuiltin K s' fuel a' args') := by
  have hcall : ∀ {P f s s'} us us', Rel M P f s s' → At P f a a' → IsBuiltin s W.chg a n id → World s W mes σ → Room s 1 →
      (∀ t, Ext s t → Passed t W mes n us vs) → (∀ u ∈ us, P u) → us' = us.map f →
      Sim M P f (builtinFunction s a >>= fun r => K.builtin fuel r.1 us r.2) (builtinFunction s' a' >>= fun r => K.builtin fuel r.1 us' r.2) := by
    intro P f s s' us us' h ha hb hw hr hp hu e
    have hf := hb.function_ok hr
    have hext := push_ext s { tag := .number, car := 0, cdr := id }
    have hsim : SimR M P f (fun P f p p' => p.1 = p'.1 ∧ Rel M P f p.2 p'.2) (builtinFunction s a) (builtinFunction s' a') := by
      have e0 : structRef s a 5 = ok (s.free, s.push { tag := .number, car := 0, cdr := id }) := by
        simp only [structRef, St.rd_ok hb.valid, ok_bind, assert_true hb.tag, hb.length, assert_true (show (5 : Int) < 6 by decide),
          fetch_num hr hb.function]
      simp only [builtinFunction]
      refine (structRef_sim h 5 ha).bindAt fun P1 f1 r r' t t' h1 hr1 m1 q1 => ?_
      rw [show ((5 : Nat) : Int) = 5 from rfl, e0] at q1
      cases q1
      obtain ⟨v1, v2⟩ := h1.atValid hr1
      simp only [St.cdr_ok v1, St.cdr_ok v2, ok_bind, h1.number hr1 (by simp)]
      exact .inr ⟨P1, f1, _, rfl, ⟨rfl, h1⟩, fun _ ha => ⟨ha, rfl⟩⟩
    refine hsim.bind fun P1 f1 p p' hp' m1 q1 => ?_
    rw [hf] at q1
    cases q1
    obtain ⟨p1, p2⟩ := p'
    obtain ⟨e1, e2⟩ := hp'
    dsimp only at e1 e2 ⊢
    subst e1
    have e3 : us' = us.map f1 := by
      rw [e]
      exact List.map_congr_left fun u hu' => (m1 u (hu u hu')).2.symm
    rw [e3]
    exact hB _ W σ us (hext.world hw) (hp _ hext) P1 f1 _ e2 fun u hu' => (m1 u (hu u hu')).1
  have e1 := push_ext s { tag := .number, car := 0, cdr := n }
  have r1 : Room (s.push { tag := .number, car := 0, cdr := n }) 1 := hr.step e1 (by simp; omega)
  have c1 : (s.push { tag := .number, car := 0, cdr := n }).cell s.free = { tag := .number, car := 0, cdr := n } := by simp
  have ha0 := hb.arity_ok (hr.mono (by omega))
  have hl1 := e1.grow.later W
  have hb1 := hb.later hl1
  have hargs1 := hargs.later hl1
  have hw1 := e1.world hw
  have h32 : toInt32 n = n := toInt32_id (by omega) (by omega)
  simp only [applyBuiltin]
  refine Sim.bindAt (structRef_sim h 4 ha) fun P1 f1 r r' t t' h1 hr1 m1 q1 => ?_
  rw [ha0] at q1
  cases q1
  generalize s.push { tag := .number, car := 0, cdr := n } = s1 at *
  obtain ⟨v1, v2⟩ := h1.atValid hr1
  have hA := ha.mono m1
  have hG := hargs'.mono m1
  simp only [St.cdr_ok v1, St.cdr_ok v2, ok_bind, h1.number hr1 (by rw [c1]), c1, h32, firstValue_ok hargs1, secondValue_ok hargs1 hw1,
    firstValue_sim h1 hG hargs1, secondValue_sim h1 hG hargs1]
  rcases hn with hn | ⟨hn, hn3⟩
  · rw [if_neg (by omega), if_neg (by omega), if_neg (by omega), if_neg (by omega), if_pos hn, if_neg (by omega), if_neg (by omega),
      if_neg (by omega), if_neg (by omega), if_pos hn]
    exact hcall [args] [args'] h1 hA hb1 hw1 r1 (fun t ht => by rw [hn]; exact .list (hargs1.later (ht.grow.later W)))
      (by simp only [List.mem_singleton]; rintro u rfl; exact hG.1) (by simp only [List.map_cons, List.map_nil, hG.2])
  · match vs, hn, hn3, hargs1 with
    | [], hn, _, hargs1 =>
      simp only [List.length_nil] at hn
      rw [if_pos (by omega), if_pos (by omega)]
      exact hcall [] [] h1 hA hb1 hw1 r1 (fun t ht => by rw [hn]; exact .args (.nil) (by decide)) (by simp) rfl
    | [w0], hn, _, hargs1 =>
      simp only [List.length_cons, List.length_nil] at hn
      cases hargs1 with
      | cons p0 v0 hvs =>
        have q0 := h1.pairs hG p0.tag
        rw [if_neg (by omega), if_pos (by omega), if_neg (by omega), if_pos (by omega)]
        simp only [St.rd_ok q0.valid, St.rd_ok q0.valid', ok_bind]
        exact hcall [_] [_] h1 hA hb1 hw1 r1 (fun t ht => by rw [hn]; exact .args (.cons (v0.later (ht.grow.later W)) .nil) (by simp))
          (by simp only [List.mem_singleton]; rintro u rfl; exact q0.car.1) (by simp only [List.map_cons, List.map_nil, q0.car.2])
    | [w0, w1], hn, _, hargs1 =>
      simp only [List.length_cons, List.length_nil] at hn
      cases hargs1 with
      | cons p0 v0 hvs =>
        have q0 := h1.pairs hG p0.tag
        have hq0 := q0.cdr
        rw [if_neg (by omega), if_neg (by omega), if_pos (by omega), if_neg (by omega), if_neg (by omega), if_pos (by omega)]
        simp only [St.rd_ok q0.valid, St.rd_ok q0.valid', ok_bind]
        generalize (s1.cell args).cdr = y1 at *
        generalize (t'.cell args').cdr = y1' at *
        cases hvs with
        | cons p1 v1' hvs =>
          have q1 := h1.pairs hq0 p1.tag
          simp only [St.rd_ok q1.valid, St.rd_ok q1.valid', ok_bind]
          exact hcall [_, _] [_, _] h1 hA hb1 hw1 r1 (fun t ht => by
              rw [hn]; exact .args (.cons (v0.later (ht.grow.later W)) (.cons (v1'.later (ht.grow.later W)) .nil)) (by simp))
            (by simp only [List.mem_cons, List.not_mem_nil, or_false]; rintro u (rfl | rfl); exact q0.car.1; exact q1.car.1)
            (by simp only [List.map_cons, List.map_nil, q0.car.2, q1.car.2])
    | [w0, w1, w2], hn, _, hargs1 =>
      simp only [List.length_cons, List.length_nil] at hn
      cases hargs1 with
      | cons p0 v0 hvs =>
        have q0 := h1.pairs hG p0.tag
        have hq0 := q0.cdr
        rw [if_neg (by omega), if_neg (by omega), if_neg (by omega), if_pos (by omega), if_neg (by omega), if_neg (by omega), if_neg (by omega),
          if_pos (by omega)]
        simp only [St.rd_ok q0.valid, St.rd_ok q0.valid', ok_bind]
        generalize (s1.cell args).cdr = y1 at *
        generalize (t'.cell args').cdr = y1' at *
        cases hvs with
        | cons p1 v1' hvs =>
          have q1 := h1.pairs hq0 p1.tag
          have hq1 := q1.cdr
          simp only [St.rd_ok q1.valid, St.rd_ok q1.valid', ok_bind]
          generalize (s1.cell y1).cdr = y2 at *
          generalize (t'.cell y1').cdr = y2' at *
          cases hvs with
          | cons p2 v2' hvs =>
            have q2 := h1.pairs hq1 p2.tag
            simp only [St.rd_ok q2.valid, St.rd_ok q2.valid', ok_bind]
            exact hcall [_, _, _] [_, _, _] h1 hA hb1 hw1 r1 (fun t ht => by
                rw [hn]; exact .args (.cons (v0.later (ht.grow.later W)) (.cons (v1'.later (ht.grow.later W)) (.cons (v2'.later (ht.grow.later W)) .nil))) (by simp))
              (by simp only [List.mem_cons, List.not_mem_nil, or_false]; rintro u (rfl | rfl | rfl); exact q0.car.1; exact q1.car.1; exact q2.car.1)
              (by simp only [List.map_cons, List.map_nil, q0.car.2, q1.car.2, q2.car.2])
    | _ :: _ :: _ :: _ :: _, _, h3, _ => simp only [List.length_cons] at h3; omega

/-- A builtin as operator. -/
theorem moves_applyPrim (x : Int) (gp mp : Option Bool) {n id : Int} {vs : List Value} (htop : s.sp + 5 ≤ s.stackSize)
    (hw : World s W mes σ) (hp : (s.cell s.r1).tag = .pair) (hb : IsBuiltin s W.chg (s.cell s.r1).car n id)
    (hargs : IsVals s W mes (s.cell s.r1).cdr vs) (hr : Room s 1)
    (hB : n = -1 ∨ n = vs.length → (n = -1 ∨ n = vs.length ∧ vs.length ≤ 3) ∧ Room s 3 ∧ MovesBuiltin K.builtin mes n id vs) :
    Moves K ⟨.apply, s, x, gp, mp⟩ := by
  have hg : Grow s (s.proc (s.cell s.r1).car) := ⟨Int.le_refl _, fun _ _ => rfl⟩
  have hw1 := hw.grow hg rfl
  have hb1 := hb.later (hg.later W)
  have hargs1 := hargs.later (hg.later W)
  have hbi := hb1.isBuiltin (World.fixed_cell hw1 (by decide) (by decide))
  have hr1 : Room (s.proc (s.cell s.r1).car) 1 := ⟨hr.base, hr.room⟩
  have hext := push_ext (s.proc (s.cell s.r1).car) { tag := .number, car := 0, cdr := n }
  obtain ⟨F1, hlen⟩ := vals_length (hargs1.later (hext.grow.later W))
  have hF : ∃ F : Nat, n = -1 ∨ n = vs.length → ∀ fuel, F ≤ fuel → ∀ s W σ us, World s W mes σ → Passed s W mes n us vs →
      ∀ M P f s', Rel M P f s s' → (∀ u ∈ us, P u) → Sim M P f (K.builtin fuel id us s) (K.builtin fuel id (us.map f) s') := by
    by_cases hn : n = -1 ∨ n = vs.length
    · obtain ⟨-, -, F, hF⟩ := hB hn
      exact ⟨F, fun _ => hF⟩
    · exact ⟨0, fun h => absurd h hn⟩
  obtain ⟨F2, hF⟩ := hF
  refine .sameFuel (max F1 F2) fun fuel hfu M P f s' x' he h => ?_
  have hq := h.pairs h.at1 hp
  obtain ⟨i1, i2⟩ := h.proc htop hq.car
  obtain ⟨w1, w2⟩ := i1.atValid hq.car
  simp only [step, St.rd_ok hq.valid, St.rd_ok hq.valid', ok_bind, setStack_proc h.sound.sp.1 htop, i2, St.rd_ok w1, St.rd_ok w2]
  refine (builtinP_sim i1 hq.car).bind fun P1 f1 p p' hpp m1 q1 => ?_
  rw [hbi] at q1
  cases q1
  obtain ⟨p', s1'⟩ := p'
  obtain ⟨e1, h1⟩ := hpp
  dsimp only at e1 h1 ⊢
  subst e1
  simp only [if_true, applyPrim, bind_assoc']
  have hA := hq.car.mono m1
  have hG := hq.cdr.mono m1
  refine Sim.bindAt (structRef_sim h1 4 hA) fun P2 f2 r r' t t' h2 hr2 m2 q2 => ?_
  rw [hb1.arity_ok hr1] at q2
  cases q2
  refine (checkFormals_sim h2 hr2 (hG.mono m2) fuel).simS fun _ _ q3 _ => ?_
  have hn : n = -1 ∨ n = vs.length := by
    obtain ⟨v1, v2⟩ := h2.atValid hr2
    have c1 : ((s.proc (s.cell s.r1).car).push { tag := .number, car := 0, cdr := n }).cell (s.proc (s.cell s.r1).car).free =
      { tag := .number, car := 0, cdr := n } := by simp
    simp only [checkFormals, St.rd_ok v1, ok_bind, c1, if_true, length__, hlen fuel (by omega)] at q3
    split at q3
    · cases q3
    · omega
  obtain ⟨hn', hr3, -⟩ := hB hn
  have hr3' : Room ((s.proc (s.cell s.r1).car).push { tag := .number, car := 0, cdr := n }) 2 :=
    Room.step (s := s.proc (s.cell s.r1).car) (k := 3) ⟨hr3.base, hr3.room⟩ hext (by simp; omega)
  refine Sim.bindAt (applyBuiltin_sim h2 (hA.mono m2) (hG.mono m2) (hb1.later (hext.grow.later W)) (hext.world hw1)
    (hargs1.later (hext.grow.later W)) hn' hr3' fun s W σ us g1 g2 P f s' g3 g4 => hF hn fuel (by omega) s W σ us g1 g2 M P f s' g3 g4) ?_
  intro P3 f3 z z' t3 t3' h3 hz m3 q3
  exact sim_go (by decide) he (h3.setR1 he hz)

end Mes.Gc
