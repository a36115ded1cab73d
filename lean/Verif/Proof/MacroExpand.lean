import Verif.Proof.Toplevel
/-
Looking for macros in programs without macros.
-/
namespace Mes
open Res Spec Gc

variable {s s' s0 : St} {W W' : Ghost} {mes : Bool} {σ σ' : Store} {N : Idents} {ρ : Locals} {K : Calls} {d k : Nat}

theorem Spec.MacroTable.later {n : Nat} (h : MacroTable s W n) (hl : Later W s W' s') (hm : s'.macros = s.macros) : MacroTable s' W' n := by
  have e0 : s'.cell s.macros = s.cell s.macros := hl.same _ h.valid.2 h.fixed
  have e1 := hl.same _ h.size.valid.2 h.sfixed
  have e2 := hl.same _ h.rvalid.2 h.rfixed
  have e3 := hl.same _ h.vvalid.2 h.vfixed
  have eb : bucketsOf s' s'.macros = bucketsOf s s.macros := by unfold bucketsOf; rw [hm, e0, e2]
  constructor
  · rw [hm]; exact hl.valid h.valid
  · rw [hm, e0]; exact h.tag
  · rw [hm, e0]; exact h.length
  · rw [hm]; exact hl.fixed h.valid h.fixed
  · rw [hm, e0]; exact ⟨hl.valid h.size.valid, by rw [e1]; exact h.size.tag, by rw [e1]; exact h.size.value⟩
  · rw [hm, e0]; exact hl.fixed h.size.valid h.sfixed
  · rw [hm, e0]; exact hl.valid h.rvalid
  · rw [hm, e0, e2]; exact h.rtag
  · rw [hm, e0]; exact hl.fixed h.rvalid h.rfixed
  · rw [eb]; exact hl.valid h.vvalid
  · rw [eb, e3]; exact h.vtag
  · rw [eb, e3]; exact h.vlength
  · rw [eb]; exact hl.fixed h.vvalid h.vfixed
  · exact h.pos
  · exact h.small

theorem Spec.NotMacro.later {n : Nat} {x : Int} (h : NotMacro s W n x) (ht : MacroTable s W n) (hl : Later W s W' s') (hm : s'.macros = s.macros) :
    NotMacro s' W' n x := by
  have e0 : s'.cell s.macros = s.cell s.macros := hl.same _ ht.valid.2 ht.fixed
  have e2 := hl.same _ ht.rvalid.2 ht.rfixed
  have e3 := hl.same _ ht.vvalid.2 ht.vfixed
  have eb : bucketsOf s' s'.macros = bucketsOf s s.macros := by unfold bucketsOf; rw [hm, e0, e2]
  have ec : macroBucket s' W' n x = macroBucket s W n x := by unfold macroBucket; rw [eb, e3, hl.name]
  have e4 := hl.same _ h.valid.2 h.fixed
  constructor
  · rw [ec]; exact hl.valid h.valid
  · rw [ec, e4]; exact h.tag
  · rw [ec]; exact hl.fixed h.valid h.fixed
  · rw [ec, e4]
    exact h.none.imp id fun ⟨h1, h2⟩ => ⟨h1.later hl, h2.later hl⟩

/-- Looking up a name that is not a macro. -/
theorem handle_none {n : Nat} {x : Int} (hw : World s W mes σ) (ht : MacroTable s W n) (h : NotMacro s W n x) (hx : IsName s W x) (hr : Room s 1) :
    ∃ F s', (∀ fuel, F ≤ fuel → macroGetHandle s fuel x = ok (c_f, s')) ∧ Ext s s' ∧ s'.free = s.free + 1 := by
  have hg := push_ext s { tag := .number, car := 0, cdr := (n : Int) }
  have hl := hg.grow.later W
  have hm : (s.push { tag := .number, car := 0, cdr := (n : Int) }).macros = s.macros := rfl
  have ht' := ht.later hl hm
  have h' := h.later ht hl hm
  have hw' := hg.world hw
  have hx' := hx.later hl
  have hfree := hr.free_valid { tag := .number, car := 0, cdr := (n : Int) }
  have hsz : structRef s s.macros 3 = ok (s.free, s.push { tag := .number, car := 0, cdr := (n : Int) }) := by
    simp only [structRef, St.rd_ok ht.valid, ok_bind, assert_true ht.tag, ht.length,
      assert_true (show (3 : Int) < 5 by decide), fetch_num hr ht.size]
  have hcell : (s.push { tag := .number, car := 0, cdr := (n : Int) }).cell s.free = { tag := .number, car := 0, cdr := (n : Int) } := by simp
  have hf : (s.push { tag := .number, car := 0, cdr := (n : Int) }).free = s.free + 1 := by simp
  generalize s.push { tag := .number, car := 0, cdr := (n : Int) } = s1 at *
  have hbk : structRef s1 s1.macros 4 = ok (bucketsOf s1 s1.macros, s1) := by
    simp only [structRef, St.rd_ok ht'.valid, ok_bind, assert_true ht'.tag, ht'.length, assert_true (show (4 : Int) < 5 by decide)]
    exact fetch_ref ht'.rvalid ht'.rtag rfl ht'.vvalid (by rw [ht'.vtag]; decide)
  obtain ⟨v, e1, e2⟩ := hashq_ok hx'.text (.inl hx'.tag) hx'.ascii ht'.pos ht'.small
  have hsl := slot_lt (n := n) (W.name x) ht'.pos
  have hu : s1.Valid c_unspecified ∧ (s1.cell c_unspecified).tag = .special := World.fixed_cell hw' (by decide) (by decide)
  have hn := World.nil hw'
  have hb : s1.Valid (s1.cell (macroBucket s1 W n x)).car ∧ ((s1.cell (s1.cell (macroBucket s1 W n x)).car).tag = .special ∨
      (s1.cell (s1.cell (macroBucket s1 W n x)).car).tag = .pair) := by
    rcases h'.none with e | ⟨h1, _⟩
    · rw [e]; exact ⟨hu.1, .inl hu.2⟩
    · exact ⟨h1.valid, .inr h1.tag⟩
  have hvr : vectorRef s1 (bucketsOf s1 s1.macros) (slot n (W.name x)) = ok ((s1.cell (macroBucket s1 W n x)).car, s1) := by
    have hlt : ((slot n (W.name x) : Nat) : Int) < n := by omega
    simp only [vectorRef, St.rd_ok ht'.vvalid, ok_bind, assert_true ht'.vtag, ht'.vlength, assert_true hlt]
    refine fetch_ref h'.valid h'.tag rfl hb.1 ?_
    rcases hb.2 with h2 | h2 <;> rw [h2] <;> decide
  rw [hm] at hbk hvr
  have key : ∃ F, ∀ fuel, F ≤ fuel → hashqGetHandle s fuel s.macros x c_nil = ok (c_f, s1) := by
    rcases h'.none with e | ⟨p1, p2⟩
    · refine ⟨0, fun fuel _ => ?_⟩
      simp only [hashqGetHandle, hsz, ok_bind, St.cdr_ok hfree, hcell, e1, hbk, e2, hvr, St.rd_ok hn.1, hn.2, e, St.rd_ok hu.1, hu.2,
        reduceCtorEq, if_false]
    · obtain ⟨F, hF⟩ := p2.run hn hx'.text.valid hx'.tag
      refine ⟨F, fun fuel hf => ?_⟩
      simp only [hashqGetHandle, hsz, ok_bind, St.cdr_ok hfree, hcell, e1, hbk, e2, hvr, St.rd_ok hn.1, hn.2, St.rd_ok p1.valid, p1.tag,
        reduceCtorEq, if_false, if_true, hF fuel hf, Option.getD_none]
  obtain ⟨F, hF⟩ := key
  refine ⟨F, s1, fun fuel hf => ?_, hg, hf⟩
  simp only [macroGetHandle, St.rd_ok hx.text.valid, hx.tag, ok_bind, if_true, hF fuel hf]

/-- No macro in the form at `c`: it is left as it is. -/
def Same (K : Calls) (s0 : St) (k d : Nat) (c : Int) : Prop :=
  ∀ s, Grow s0 s → Consts s0 s → s.r1 = c → Ready s k d → ∀ x gp mp, ∃ s',
    Walk False K ⟨.macroExpand, s, x, gp, mp⟩ ⟨.dispatch, s', x, gp, mp⟩ ∧ Popped s s' ∧ Grow s s' ∧ s'.r1 = c ∧ s'.free ≤ s.free + k

theorem Same.mono {c : Int} {k' d' : Nat} (h : Same K s0 k d c) (hk : k ≤ k') (hd : d ≤ d') : Same K s0 k' d' c := by
  intro s h0 hm hc hr x gp mp
  obtain ⟨s', h1, h2, h3, h4, h5⟩ := h s h0 hm hc (hr.mono hk hd) x gp mp
  exact ⟨s', h1, h2, h3, h4, by omega⟩

theorem upd_same (s : St) (a : Int) : s.upd a (s.cell a) = s := by
  have : (fun b => if b = a then s.cell a else s.cell b) = s.cell := by
    funext b
    split
    · next h => rw [h]
    · rfl
  unfold St.upd
  rw [this]

theorem setCar_same {p v : Int} (hv : s.Valid p) (h : (s.cell p).car = v) : s.setCar p v = ok s := by
  rw [St.setCar_ok' hv, ← h, upd_same]

theorem setCdr_same {p v : Int} (hv : s.Valid p) (h : (s.cell p).cdr = v) : s.setCdr p v = ok s := by
  rw [St.setCdr, St.rd_ok hv, ok_bind, St.put_ok _ hv, ← h]
  exact congrArg ok (upd_same s p)

/-- Atoms and quotations. -/
theorem same_stop {c : Int} (hv : s0.Valid c) (h : (s0.cell c).tag ≠ .pair ∨ (s0.cell c).car = c_symbol_quote) : Same K s0 0 0 c := by
  intro s h0 hm hc hr x gp mp
  have hcell := h0.same c hv.2
  refine ⟨{ s.popped with r1 := s.r1 }, .trans ?_ (.ret hr), popped_popped _, ⟨by show s.free ≤ s.free; omega, fun _ _ => rfl⟩, hc, by show s.free ≤ _; omega⟩
  refine .one (fun q => q.elim) fun fuel => ?_
  simp only [step, hc, St.rd_ok (h0.valid hv), ok_bind, hcell]
  rw [if_pos h]

theorem Spec.Macros.grow {n : Nat} (h : Macros mes σ W n s) (hg : Grow s s') (hc : Consts s s') : Macros mes σ W n s' :=
  have hl := hg.later W
  ⟨h.world.grow hg hc.m0, h.table.later hl hc.macros, h.portable.1.later hl, h.portable.2.later h.table hl hc.macros⟩

/-- What is no macro: anything but a symbol, or a name that is not in the table. -/
def NoMacro (s : St) (W : Ghost) (n : Nat) (a : Int) : Prop :=
  s.Valid a ∧ ((s.cell a).tag ≠ .symbol ∨ IsName s W a ∧ NotMacro s W n a)

theorem NoMacro.grow {n : Nat} {a : Int} (h : NoMacro s W n a) (ht : MacroTable s W n) (hg : Grow s s') (hm : s'.macros = s.macros) : NoMacro s' W n a := by
  have hl := hg.later W
  refine ⟨hg.valid h.1, ?_⟩
  rw [hg.same a h.1.2]
  exact h.2.imp id fun ⟨h1, h2⟩ => ⟨h1.later hl, h2.later ht hl hm⟩

theorem getMacro_none {n : Nat} {a : Int} (hw : World s W mes σ) (ht : MacroTable s W n) (h : NoMacro s W n a) (hr : Room s 1) :
    ∃ F s', (∀ fuel, F ≤ fuel → getMacro s fuel a = ok (c_f, s')) ∧ Ext s s' ∧ s'.free ≤ s.free + 1 := by
  rcases h.2 with hn | ⟨hi, hn⟩
  · refine ⟨0, s, fun fuel _ => ?_, Frame.refl .., by omega⟩
    simp only [getMacro, macroGetHandle, St.rd_ok h.1, ok_bind, if_neg hn, if_true]
  · obtain ⟨F, s', h1, h2, h3⟩ := handle_none hw ht hn hi hr
    refine ⟨F, s', fun fuel hf => ?_, h2, by omega⟩
    simp only [getMacro, h1 fuel hf, ok_bind, if_true]

theorem scExpand_none {n : Nat} {a : Int} (hm : Macros mes σ W n s) (hv : s.Valid s.r1) (ha : (s.cell s.r1).car = a) (hva : s.Valid a) (hr : Room s 1) :
    ∃ F s', (∀ fuel, F ≤ fuel → scExpand s fuel = ok (false, s')) ∧ Ext s s' ∧ s'.free ≤ s.free + 1 := by
  by_cases hc : (s.cell a).tag = .symbol ∧ a ≠ c_symbol_begin
  · obtain ⟨F, s', h1, h2, h3⟩ := handle_none hm.world hm.table hm.portable.2 hm.portable.1 hr
    refine ⟨F, s', fun fuel hf => ?_, h2, by omega⟩
    simp only [scExpand, St.rd_ok hv, ha, St.rd_ok hva, ok_bind, if_pos hc, h1 fuel hf, if_true]
  · refine ⟨0, s, fun fuel _ => ?_, Frame.refl .., by omega⟩
    simp only [scExpand, St.rd_ok hv, ha, St.rd_ok hva, ok_bind, if_neg hc]

theorem same_ret {c : Int} (hr : Ready s k d) (hc : s.r1 = c) (x : Int) (gp mp : Option Bool) : ∃ s', Walk False K ⟨.vmReturn, s, x, gp, mp⟩ ⟨.dispatch, s', x, gp, mp⟩ ∧
    Popped s s' ∧ Grow s s' ∧ s'.r1 = c ∧ s'.free = s.free :=
  ⟨_, .ret hr, popped_popped _, ⟨by show s.free ≤ s.free; omega, fun _ _ => rfl⟩, hc, rfl⟩

theorem grow_reg (s : St) (r : Int) : Grow s { s with r1 := r } := ⟨by show s.free ≤ s.free; omega, fun _ _ => rfl⟩
theorem keeps_reg (s : St) (r : Int) : SameStack s { s with r1 := r } := ⟨⟨rfl, rfl, rfl, rfl, rfl⟩, rfl, fun _ _ _ => rfl⟩

/-- A pair that is no special form for `macro_expand`. -/
theorem same_pair {n : Nat} {c : Int} {k1 k2 d1 d2 : Nat} (hm : Macros mes σ W n s0) (hv : s0.Valid c) (ht : (s0.cell c).tag = .pair)
    (hh : NoMacro s0 W n (s0.cell c).car) (hk : ¬ Keyword (s0.cell c).car) (hs : (s0.cell c).car ≠ c_symbol_set_x)
    (h1 : Same K s0 k1 d1 (s0.cell c).car) (h2 : (s0.cell c).cdr = c_nil ∨ Same K s0 k2 d2 (s0.cell c).cdr) :
    Same K s0 (2 + k1 + k2) (max d1 d2 + 1) c := by
  intro s h0 hcs hc hr x gp mp
  simp only [Keyword, not_or] at hk
  obtain ⟨hk1, hk2, hk3, hk4⟩ := hk
  have hms := hm.grow h0 hcs
  have hcell := h0.same c hv.2
  have hvs := h0.valid hv
  obtain ⟨F, s1, a1, a2, a3⟩ := getMacro_none hms.world hms.table (hh.grow hm.table h0 hcs.macros) (hr.room.mono (by omega))
  have hr1 := hr.keeps (j := 1) (k' := 1 + k1 + k2) a2.keeps a2.le a3 (by omega)
  have g1 := h0.trans a2.grow
  have c1 := hcs.trans a2.consts
  have hm1 := hm.grow g1 c1
  have hcell1 := g1.same c hv.2
  have e11 : s1.r1 = c := by rw [a2.r1, hc]
  obtain ⟨F', s2, b1, b2, b3⟩ := scExpand_none (a := (s0.cell c).car) hm1 (by rw [e11]; exact g1.valid hv) (by rw [e11, hcell1]) (g1.valid hh.1) (hr1.room.mono (by omega))
  have hr2 := hr1.keeps (j := 1) (k' := k1 + k2) b2.keeps b2.le b3 (by omega)
  have g2 := g1.trans b2.grow
  have c2 := c1.trans b2.consts
  have e21 : s2.r1 = c := by rw [b2.r1, e11]
  have hp2 := grow_pushed s2 (s0.cell c).car c s2.r0 c_vm_macro_expand_car
  have kp2 : Consts s2 (s2.pushed (s0.cell c).car c s2.r0 c_vm_macro_expand_car) := ⟨rfl, rfl, rfl, rfl, rfl⟩
  obtain ⟨s3, w1, w2, w3, w4, w5⟩ := h1 _ (g2.trans hp2) (c2.trans kp2) rfl ((hr2.pushed ..).mono (by omega) (by omega)) x gp mp
  have bk := w2.back
  have f2 : (s2.pushed (s0.cell c).car c s2.r0 c_vm_macro_expand_car).free = s2.free := rfl
  have hr3 := hr2.keeps (k' := k2) bk.keeps (hp2.trans w3).le (by omega) (Nat.le_refl _)
  have g3 := g2.trans (hp2.trans w3)
  have c3 := c2.trans bk.keeps.consts
  have hcell3 := g3.same c hv.2
  have walk1 : Walk False K ⟨.macroExpand, s, x, gp, mp⟩ ⟨.macroExpandCar, s3, x, gp, mp⟩ := by
    refine .trans (.fuel (fun q => q.elim) (F + F') fun fuel hf => ?_) (.trans w1 (.dispatch (by rw [bk.r3]; decide)))
    simp only [step, hc, St.rd_ok hvs, ok_bind, hcell, ht, ne_eq, not_true, hk4, or_self, if_false, hk1, a1 fuel (by omega), hk2, hk3, hs,
      b1 fuel (by omega), Bool.false_eq_true, e21, hr2.pushCc]
  have g3' := grow_reg s3 s3.r2
  have q3 : s3.Valid s3.r2 := by rw [bk.r2]; exact g3.valid hv
  have q3' : ({ s3 with r1 := s3.r2 } : St).Valid s3.r2 := q3
  have q4 : (s3.cell s3.r2).car = s3.r1 := by rw [bk.r2, hcell3, w4]
  have q5 : (s3.cell s3.r2).cdr = (s0.cell c).cdr := by rw [bk.r2, hcell3]
  rcases h2 with h2 | h2
  · have hr3' := hr3.keeps (j := 0) (k' := 0) (keeps_reg s3 s3.r2) g3'.le (by show s3.free ≤ s3.free + _; omega) (by omega)
    obtain ⟨s4, v1, v2, v3, v4, v5⟩ := same_ret (K := K) (c := c) hr3' bk.r2 x gp mp
    have fc : ({ s3 with r1 := s3.r2 } : St).free = s3.free := rfl
    have ks : SameStack s { s3 with r1 := s3.r2 } := (a2.keeps.trans b2.keeps).trans (bk.keeps.trans (keeps_reg s3 s3.r2))
    refine ⟨s4, walk1.trans (.trans ?_ v1), ks.popped v2, (a2.grow.trans b2.grow).trans ((hp2.trans w3).trans (g3'.trans v3)), v4, by omega⟩
    refine .one (fun q => q.elim) fun fuel => ?_
    simp only [step, setCar_same q3 q4, ok_bind, St.rd_ok q3']
    rw [if_pos (q5.trans h2)]
  · have hr3' := hr3.keeps (j := 0) (k' := k2) (keeps_reg s3 s3.r2) g3'.le (by show s3.free ≤ s3.free + _; omega) (by omega)
    by_cases hnil : (s0.cell c).cdr = c_nil
    · obtain ⟨s4, v1, v2, v3, v4, v5⟩ := same_ret (K := K) (c := c) hr3' bk.r2 x gp mp
      have fc : ({ s3 with r1 := s3.r2 } : St).free = s3.free := rfl
      have ks : SameStack s { s3 with r1 := s3.r2 } := (a2.keeps.trans b2.keeps).trans (bk.keeps.trans (keeps_reg s3 s3.r2))
      refine ⟨s4, walk1.trans (.trans ?_ v1), ks.popped v2, (a2.grow.trans b2.grow).trans ((hp2.trans w3).trans (g3'.trans v3)), v4, by omega⟩
      refine .one (fun q => q.elim) fun fuel => ?_
      simp only [step, setCar_same q3 q4, ok_bind, St.rd_ok q3']
      rw [if_pos (q5.trans hnil)]
    have g4 := g3.trans g3'
    have c4 := c3.trans (keeps_reg s3 s3.r2).consts
    have fc : ({ s3 with r1 := s3.r2 } : St).free = s3.free := rfl
    have pc : pushCc { s3 with r1 := s3.r2 } (s0.cell c).cdr s3.r2 s3.r0 c_vm_macro_expand_cdr =
        ok (({ s3 with r1 := s3.r2 } : St).pushed (s0.cell c).cdr c s3.r0 c_vm_macro_expand_cdr) := by
      rw [hr3'.pushCc]
      exact congrArg (fun z => ok (({ s3 with r1 := s3.r2 } : St).pushed (s0.cell c).cdr z s3.r0 c_vm_macro_expand_cdr)) bk.r2
    have wstep : Walk False K ⟨.macroExpandCar, s3, x, gp, mp⟩
        ⟨.macroExpand, ({ s3 with r1 := s3.r2 } : St).pushed (s0.cell c).cdr c s3.r0 c_vm_macro_expand_cdr, x, gp, mp⟩ := by
      refine .one (fun q => q.elim) fun fuel => ?_
      simp only [step, setCar_same q3 q4, ok_bind, St.rd_ok q3']
      rw [if_neg (show ¬ (s3.cell s3.r2).cdr = c_nil by rw [q5]; exact hnil), show (s3.cell s3.r2).cdr = _ from q5, pc]
      rfl
    have ks3 : SameStack s { s3 with r1 := s3.r2 } := (a2.keeps.trans b2.keeps).trans (bk.keeps.trans (keeps_reg s3 s3.r2))
    have gg3 : Grow s { s3 with r1 := s3.r2 } := (a2.grow.trans b2.grow).trans ((hp2.trans w3).trans g3')
    generalize ({ s3 with r1 := s3.r2 } : St) = s3' at *
    have hp4 := grow_pushed s3' (s0.cell c).cdr c s3.r0 c_vm_macro_expand_cdr
    have kp4 : Consts s3' (s3'.pushed (s0.cell c).cdr c s3.r0 c_vm_macro_expand_cdr) := ⟨rfl, rfl, rfl, rfl, rfl⟩
    obtain ⟨s5, u1, u2, u3, u4, u5⟩ := h2 _ (g4.trans hp4) (c4.trans kp4) rfl ((hr3'.pushed ..).mono (by omega) (by omega)) x gp mp
    have bk2 := u2.back
    have f4 : (s3'.pushed (s0.cell c).cdr c s3.r0 c_vm_macro_expand_cdr).free = s3'.free := rfl
    have g5 := g4.trans (hp4.trans u3)
    have hr5 := hr3'.keeps (k' := 0) bk2.keeps (hp4.trans u3).le (by omega) (Nat.le_refl _)
    have hcell5 := g5.same c hv.2
    have hr5' := hr5.keeps (j := 0) (k' := 0) (keeps_reg s5 s5.r2) (grow_reg s5 s5.r2).le (by show s5.free ≤ s5.free + _; omega) (by omega)
    obtain ⟨s6, v1, v2, v3, v4, v5⟩ := same_ret (K := K) (c := c) hr5' bk2.r2 x gp mp
    have f5 : ({ s5 with r1 := s5.r2 } : St).free = s5.free := rfl
    refine ⟨s6, walk1.trans (wstep.trans (u1.trans (.trans (.dispatch (l := .macroExpandCdr) (by rw [bk2.r3]; decide)) (.trans ?_ v1)))),
      (ks3.trans (bk2.keeps.trans (keeps_reg s5 s5.r2))).popped v2, gg3.trans ((hp4.trans u3).trans ((grow_reg s5 s5.r2).trans v3)), v4, by omega⟩
    refine .one (fun q => q.elim) fun fuel => ?_
    have q6 : s5.Valid s5.r2 := by rw [bk2.r2]; exact g5.valid hv
    have q7 : (s5.cell s5.r2).cdr = s5.r1 := by rw [bk2.r2, hcell5, u4]
    simp only [step, setCdr_same q6 q7, ok_bind]

/-- A special form of which `macro_expand` looks at everything behind the second element. -/
theorem same_form {n : Nat} {c : Int} (hm : Macros mes σ W n s0) (hv : s0.Valid c) (ht : (s0.cell c).tag = .pair)
    (hd : s0.Valid (s0.cell c).cdr) (hh : (s0.cell c).car = c_symbol_lambda ∨
      ((s0.cell c).car = c_symbol_define ∨ (s0.cell c).car = c_symbol_set_x) ∧ NoMacro s0 W n (s0.cell c).car)
    (h1 : Same K s0 k d (s0.cell (s0.cell c).cdr).cdr) : Same K s0 (1 + k) (d + 1) c := by
  intro s h0 hcs hc hr x gp mp
  have hcell := h0.same c hv.2
  have hvs := h0.valid hv
  have hdcell := h0.same _ hd.2
  have key : ∃ s1 l, Ext s s1 ∧ s1.free ≤ s.free + 1 ∧ (l = c_vm_macro_expand_lambda ∨ l = c_vm_macro_expand_set_x ∨ l = c_vm_macro_expand_define ∧ (s0.cell c).car = c_symbol_define) ∧
      Walk False K ⟨.macroExpand, s, x, gp, mp⟩ ⟨.macroExpand, s1.pushed (s0.cell (s0.cell c).cdr).cdr c s1.r0 l, x, gp, mp⟩ := by
    rcases hh with hh | ⟨hh, hno⟩
    · refine ⟨s, c_vm_macro_expand_lambda, Frame.refl .., by omega, .inl rfl, .one (fun q => q.elim) fun fuel => ?_⟩
      have q1 : c_symbol_lambda ≠ c_symbol_quote := by decide
      simp only [step, hc, St.rd_ok hvs, ok_bind, hcell, ht, ne_eq, not_true, hh, q1, or_self, if_false, if_true, St.cdr_ok (h0.valid hd), hdcell, hr.pushCc]
    · have hms := hm.grow h0 hcs
      obtain ⟨F, s1, a1, a2, a3⟩ := getMacro_none hms.world hms.table (hno.grow hm.table h0 hcs.macros) (hr.room.mono (by omega))
      have hr1 := hr.keeps (j := 1) (k' := k) a2.keeps a2.le a3 (by omega)
      have g1 := h0.trans a2.grow
      have hd1 := g1.valid hd
      have hdc1 := g1.same _ hd.2
      have e1 : s1.r1 = c := by rw [a2.r1, hc]
      have q1 : (s0.cell c).car ≠ c_symbol_quote := by rcases hh with h | h <;> rw [h] <;> decide
      have q2 : (s0.cell c).car ≠ c_symbol_lambda := by rcases hh with h | h <;> rw [h] <;> decide
      rcases hh with hh | hh
      · refine ⟨s1, c_vm_macro_expand_define, a2, a3, .inr (.inr ⟨rfl, hh⟩), .fuel (fun q => q.elim) F fun fuel hf => ?_⟩
        simp only [step, hc, St.rd_ok hvs, ok_bind, hcell, ht, ne_eq, not_true, q1, q2, or_self, if_false, a1 fuel hf]
        rw [if_pos (.inl hh), St.cdr_ok hd1, ok_bind, hdc1, e1, hr1.pushCc]
        rfl
      · refine ⟨s1, c_vm_macro_expand_set_x, a2, a3, .inr (.inl rfl), .fuel (fun q => q.elim) F fun fuel hf => ?_⟩
        simp only [step, hc, St.rd_ok hvs, ok_bind, hcell, ht, ne_eq, not_true, q1, q2, or_self, if_false, a1 fuel hf]
        rw [if_neg (by rw [hh]; decide), if_pos hh, St.cdr_ok hd1, ok_bind, hdc1, e1, hr1.pushCc]
        rfl
  obtain ⟨s1, l, a2, a3, hl, w0⟩ := key
  have hr1 := hr.keeps (j := 1) (k' := k) a2.keeps a2.le a3 (by omega)
  have g1 := h0.trans a2.grow
  have c1 := hcs.trans a2.consts
  have hp := grow_pushed s1 (s0.cell (s0.cell c).cdr).cdr c s1.r0 l
  have kp : Consts s1 (s1.pushed (s0.cell (s0.cell c).cdr).cdr c s1.r0 l) := ⟨rfl, rfl, rfl, rfl, rfl⟩
  obtain ⟨s2, w1, w2, w3, w4, w5⟩ := h1 _ (g1.trans hp) (c1.trans kp) rfl (hr1.pushed ..) x gp mp
  have bk := w2.back
  have f1 : (s1.pushed (s0.cell (s0.cell c).cdr).cdr c s1.r0 l).free = s1.free := rfl
  have g2 := g1.trans (hp.trans w3)
  have hr2 := hr1.keeps (k' := 0) bk.keeps (hp.trans w3).le (by omega) (Nat.le_refl _)
  have hcell2 := g2.same c hv.2
  have hdcell2 := g2.same _ hd.2
  have hr2' := hr2.keeps (j := 0) (k' := 0) (keeps_reg s2 s2.r2) (grow_reg s2 s2.r2).le (by show s2.free ≤ s2.free + _; omega) (by omega)
  obtain ⟨s3, v1, v2, v3, v4, v5⟩ := same_ret (K := K) (c := c) hr2' bk.r2 x gp mp
  have f2 : ({ s2 with r1 := s2.r2 } : St).free = s2.free := rfl
  have q1 : s2.Valid s2.r2 := by rw [bk.r2]; exact g2.valid hv
  have q1' : ({ s2 with r1 := s2.r2 } : St).Valid s2.r2 := q1
  have q2 : (s2.cell s2.r2).cdr = (s0.cell c).cdr := by rw [bk.r2, hcell2]
  have q3 : (s2.cell (s0.cell c).cdr).cdr = s2.r1 := by rw [hdcell2, w4]
  have q4 : (s2.cell s2.r2).car = (s0.cell c).car := by rw [bk.r2, hcell2]
  refine ⟨s3, w0.trans (w1.trans (.trans ?_ v1)), (a2.keeps.trans (bk.keeps.trans (keeps_reg s2 s2.r2))).popped v2,
    a2.grow.trans ((hp.trans w3).trans ((grow_reg s2 s2.r2).trans v3)), v4, by omega⟩
  rcases hl with rfl | rfl | ⟨rfl, hdef⟩
  · refine .trans (.dispatch (l := .macroExpandLambda) (by rw [bk.r3]; decide)) (.one (fun q => q.elim) fun fuel => ?_)
    simp only [step, St.cdr_ok q1, q2, ok_bind, setCdr_same (g2.valid hd) q3]
  · refine .trans (.dispatch (l := .macroExpandSetX) (by rw [bk.r3]; decide)) (.one (fun q => q.elim) fun fuel => ?_)
    simp only [step, St.cdr_ok q1, q2, ok_bind, setCdr_same (g2.valid hd) q3]
  · refine .trans (.dispatch (l := .macroExpandDefine) (by rw [bk.r3]; decide)) (.one (fun q => q.elim) fun fuel => ?_)
    simp only [step, St.cdr_ok q1, q2, ok_bind, setCdr_same (g2.valid hd) q3, St.rd_ok q1']
    rw [if_neg (show ¬ (s2.cell s2.r2).car = c_symbol_define_macro by rw [q4, hdef]; decide)]

/-- A lambda expression: nothing is looked up. -/
theorem same_lambda {c : Int} (hv : s0.Valid c) (ht : (s0.cell c).tag = .pair) (hd : s0.Valid (s0.cell c).cdr) (hh : (s0.cell c).car = c_symbol_lambda)
    (h1 : Same K s0 k d (s0.cell (s0.cell c).cdr).cdr) : Same K s0 k (d + 1) c := by
  intro s h0 hcs hc hr x gp mp
  have hcell := h0.same c hv.2
  have hdcell := h0.same _ hd.2
  have hp := grow_pushed s (s0.cell (s0.cell c).cdr).cdr c s.r0 c_vm_macro_expand_lambda
  have kp : Consts s (s.pushed (s0.cell (s0.cell c).cdr).cdr c s.r0 c_vm_macro_expand_lambda) := ⟨rfl, rfl, rfl, rfl, rfl⟩
  obtain ⟨s2, w1, w2, w3, w4, w5⟩ := h1 _ (h0.trans hp) (hcs.trans kp) rfl (hr.pushed ..) x gp mp
  have bk := w2.back
  have f1 : (s.pushed (s0.cell (s0.cell c).cdr).cdr c s.r0 c_vm_macro_expand_lambda).free = s.free := rfl
  have g2 := h0.trans (hp.trans w3)
  have hr2 := hr.keeps (k' := 0) bk.keeps (hp.trans w3).le (by omega) (Nat.le_refl _)
  have hr2' := hr2.keeps (j := 0) (k' := 0) (keeps_reg s2 s2.r2) (grow_reg s2 s2.r2).le (by show s2.free ≤ s2.free + _; omega) (by omega)
  obtain ⟨s3, v1, v2, v3, v4, v5⟩ := same_ret (K := K) (c := c) hr2' bk.r2 x gp mp
  have f2 : ({ s2 with r1 := s2.r2 } : St).free = s2.free := rfl
  have q1 : s2.Valid s2.r2 := by rw [bk.r2]; exact g2.valid hv
  have q2 : (s2.cell s2.r2).cdr = (s0.cell c).cdr := by rw [bk.r2, g2.same c hv.2]
  have q3 : (s2.cell (s0.cell c).cdr).cdr = s2.r1 := by rw [g2.same _ hd.2, w4]
  refine ⟨s3, .trans ?_ (w1.trans (.trans ?_ v1)), (bk.keeps.trans (keeps_reg s2 s2.r2)).popped v2,
    (hp.trans w3).trans ((grow_reg s2 s2.r2).trans v3), v4, by omega⟩
  · refine .one (fun q => q.elim) fun fuel => ?_
    have n1 : c_symbol_lambda ≠ c_symbol_quote := by decide
    simp only [step, hc, St.rd_ok (h0.valid hv), ok_bind, hcell, ht, ne_eq, not_true, hh, n1, or_self, if_false, if_true, St.cdr_ok (h0.valid hd), hdcell, hr.pushCc]
  · refine .trans (.dispatch (l := .macroExpandLambda) (by rw [bk.r3]; decide)) (.one (fun q => q.elim) fun fuel => ?_)
    simp only [step, St.cdr_ok q1, q2, ok_bind, setCdr_same (g2.valid hd) q3]

theorem Spec.MacroFree.names_of {n : Nat} {N' : Idents} (h : MacroFree mes σ W n N s) (hs : ∀ x, N' x → N x) : MacroFree mes σ W n N' s :=
  ⟨h.macros, fun x hx => h.names x (hs x hx), h.heads⟩

theorem Spec.MacroFree.head {n : Nat} {x : Int} (h : MacroFree mes σ W n N s) (hx : x ∈ c_symbol_define :: formNames) : NoMacro s W n x :=
  ⟨(h.heads x hx).1.text.valid, .inr (h.heads x hx)⟩

theorem Spec.MacroFree.stop {n : Nat} {x : Int} (h : MacroFree mes σ W n N s) (hx : x ∈ c_symbol_define :: formNames) : Same K s 0 0 x :=
  same_stop (h.heads x hx).1.text.valid (.inl (by rw [(h.heads x hx).1.tag]; decide))

theorem Spec.IsSource.element {n : Nat} {c : Int} {e : Expr} {L : List Int} (h : IsSource s W mes N c e L) (hm : MacroFree mes σ W n N s) :
    NoMacro s W n c ∧ ¬ Keyword c ∧ c ≠ c_symbol_set_x := by
  refine ⟨⟨h.valid, ?_⟩, h.not_keyword hm.macros.world, ?_⟩
  · cases h with
    | const _ h => exact .inl h.2.1
    | var hx hn => exact .inr ⟨hx, hm.names _ hn⟩
    | global h => exact .inl (by rw [h.tag]; decide)
    | quote h => exact .inl (by rw [h.tag]; decide)
    | ite h | ifOnly h | lam h | app h | begin h | set h => exact .inl (by rw [h.tag]; decide)
  · rintro rfl
    have ht : (s.cell c_symbol_set_x).tag = .symbol := by rw [hm.macros.world.tags _ (by decide) (by decide)]; decide
    cases h with
    | const _ h => exact h.2.1 ht
    | var _ _ _ _ h => exact h rfl
    | global h => rw [h.tag] at ht; cases ht
    | quote h => rw [h.tag] at ht; cases ht
    | ite h | ifOnly h | lam h | app h | begin h | set h => rw [h.tag] at ht; cases ht

theorem form_ne {x : Int} (hx : x = c_symbol_if ∨ x = c_symbol_begin) : ¬ Keyword x ∧ x ≠ c_symbol_set_x := by
  rcases hx with rfl | rfl <;> (unfold Keyword; decide)

theorem Spec.IsSources.nonempty {p : Int} {es : List Expr} {L : List Int} (h : IsSources s W mes N p es L) : es = [] ∧ p = c_nil ∨ es ≠ [] := by
  cases h with
  | nil => exact .inl ⟨rfl, rfl⟩
  | cons => exact .inr nofun

mutual
theorem same_source {n : Nat} {N : Idents} {c : Int} {e : Expr} {L : List Int} (hm : MacroFree mes σ W n N s) :
    IsSource s W mes N c e L → Same K s (macroCells e) (macroDepth e) c
  | .const h ht _ => by rw [macroCells, macroDepth]; exact same_stop h.valid (.inl ht.1)
  | .quote hc hh _ _ => by rw [macroCells, macroDepth]; exact same_stop hc.valid (.inr hh)
  | .var hx _ _ _ _ => by rw [macroCells, macroDepth]; exact same_stop hx.text.valid (.inl (by rw [hx.tag]; decide))
  | .global h => by rw [macroCells, macroDepth]; exact same_stop h.valid (.inl (by rw [h.tag]; decide))
  | .ite hc hh h => by
    have h1 := same_sources hm h nofun
    have hf := form_ne (x := (s.cell c).car) (.inl hh)
    have hin : (s.cell c).car ∈ c_symbol_define :: formNames := by rw [hh]; decide
    refine (same_pair hm.macros hc.valid hc.tag (hm.head hin) hf.1 hf.2 (hm.stop hin) (.inr h1)).mono ?_ ?_
    · simp only [macroCells, macroCellsSeq]; omega
    · simp only [macroDepth, macroDepthSeq]; omega
  | .ifOnly hc hh h => by
    have h1 := same_sources hm h nofun
    have hf := form_ne (x := (s.cell c).car) (.inl hh)
    have hin : (s.cell c).car ∈ c_symbol_define :: formNames := by rw [hh]; decide
    refine (same_pair hm.macros hc.valid hc.tag (hm.head hin) hf.1 hf.2 (hm.stop hin) (.inr h1)).mono ?_ ?_
    · simp only [macroCells, macroCellsSeq]; omega
    · simp only [macroDepth, macroDepthSeq]; omega
  | .lam (fs := fs) (r := r) hc hh h1 _ hb hn => by
    rw [macroCells, macroDepth]
    have h2 := same_sources (hm.names_of (N' := N.under fs r) fun _ h => h) hb hn
    exact same_lambda hc.valid hc.tag h1.valid hh h2
  | .app hc hh hf ha _ => by
    rw [macroCells, macroDepth]
    obtain ⟨k1, k2, k3⟩ := hf.element hm
    have h1 := same_source hm hf
    rcases ha.nonempty with ⟨rfl, e⟩ | hne
    · exact same_pair hm.macros hc.valid hc.tag k1 k2 k3 h1 (.inl e)
    · exact same_pair hm.macros hc.valid hc.tag k1 k2 k3 h1 (.inr (same_sources hm ha hne))
  | .begin hc hh h hn => by
    have h1 := same_sources hm h hn
    have hf := form_ne (x := (s.cell c).car) (.inr hh)
    have hin : (s.cell c).car ∈ c_symbol_define :: formNames := by rw [hh]; decide
    refine (same_pair hm.macros hc.valid hc.tag (hm.head hin) hf.1 hf.2 (hm.stop hin) (.inr h1)).mono ?_ ?_
    · simp only [macroCells]; omega
    · simp only [macroDepth]; omega
  | .set hc hh h1 _ _ h => by
    have h2 := same_sources hm h nofun
    refine (same_form hm.macros hc.valid hc.tag h1.valid (.inr ⟨.inr hh, hm.head (by rw [hh]; decide)⟩) h2).mono ?_ ?_
    · simp only [macroCells, macroCellsSeq]; omega
    · simp only [macroDepth, macroDepthSeq]; omega
theorem same_sources {n : Nat} {N : Idents} {p : Int} {es : List Expr} {L : List Int} (hm : MacroFree mes σ W n N s) :
    IsSources s W mes N p es L → es ≠ [] → Same K s (macroCellsSeq es) (macroDepthSeq es) p
  | .nil, hn => absurd rfl hn
  | .cons hp he _ h, _ => by
    rw [macroCellsSeq, macroDepthSeq]
    obtain ⟨k1, k2, k3⟩ := he.element hm
    have h1 := same_source hm he
    rcases h.nonempty with ⟨rfl, e⟩ | hne
    · exact same_pair hm.macros hp.valid hp.tag k1 k2 k3 h1 (.inl e)
    · exact same_pair hm.macros hp.valid hp.tag k1 k2 k3 h1 (.inr (same_sources hm h hne))
end

/-- Top level forms without macros are left as they are. -/
theorem same_top {n : Nat} {c : Int} {f : Toplevel} {L : List Int} (hm : MacroFree mes σ W n N s) (h : IsTop s W mes N c f L) :
    Same K s (topMacroCells f) (topMacroDepth f) c := by
  have hin : c_symbol_define ∈ c_symbol_define :: formNames := by decide
  cases h with
  | expr h => exact same_source hm h
  | define hc hh h1 _ _ _ _ he =>
    have h2 := he.elim (fun h => same_sources (K := K) hm h.2 nofun) fun h => same_sources (hm.names_of (N' := N.without _) fun _ h => h.1) h nofun
    refine (same_form hm.macros hc.valid hc.tag h1.valid (.inr ⟨.inl hh, hm.head (by rw [hh]; exact hin)⟩) h2).mono ?_ ?_
    · simp only [topMacroCells, macroCellsSeq]; omega
    · simp only [topMacroDepth, macroDepthSeq]; omega
  | @function _ _ fs r _ _ hc hh h1 _ _ _ _ _ _ _ hb hne =>
    have h2 := same_sources (K := K) (hm.names_of (N' := N.under fs r) fun _ h => h) hb hne
    refine (same_form hm.macros hc.valid hc.tag h1.valid (.inr ⟨.inl hh, hm.head (by rw [hh]; exact hin)⟩) h2).mono ?_ ?_
    · simp only [topMacroCells, macroCells]; omega
    · simp only [topMacroDepth, macroDepth]; omega

end Mes
