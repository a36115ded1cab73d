import Verif.Proof.EvalAll
/-
Defining global variables.
-/
namespace Mes
open Res Spec Gc

variable {mv : Prop} {K : Calls} {s s' : St} {W W' : Ghost} {mes : Bool} {σ σ' : Store} {N : Idents} {ρ : Locals} {d k : Nat}
  {δ : Int → Int → List Value → Value → Prop} {M : Mode} {P : Int → Prop} {f : Int → Int}

/-- One more location, at `p`. -/
def Spec.Ghost.add (W : Ghost) (p : Int) : Ghost where
  name := W.name
  loc l := if l < W.count then W.loc l else p
  count := W.count + 1
  chg a := W.chg a ∨ a = p
  glob := W.glob
  src := W.src
  cur := W.cur

/-- The symbol or special object at `x` can be a key of the table. -/
structure IsKey (s : St) (W : Ghost) (x : Int) : Prop where
  text : HasText s x (W.name x)
  tag : (s.cell x).tag = .symbol ∨ (s.cell x).tag = .special
  fixed : ¬ W.chg x
  bfixed : ¬ W.chg (s.cell x).cdr
  ascii : 0 ≤ hashSum (W.name x)

theorem Spec.IsName.key {x : Int} (h : IsName s W x) : IsKey s W x := ⟨h.text, .inl h.tag, h.fixed, h.bfixed, h.ascii⟩

theorem IsKey.later {x : Int} (hx : IsKey s W x) (h : Later W s W' s') : IsKey s' W' x := by
  have e := h.keep hx.text.valid hx.fixed
  refine ⟨?_, by rw [e]; exact hx.tag, h.fixed hx.text.valid hx.fixed, ?_, by rw [h.name]; exact hx.ascii⟩
  · have e' := h.keep hx.text.bvalid hx.bfixed
    rw [h.name]
    exact ⟨h.valid hx.text.valid, by rw [e]; exact hx.text.length, by rw [e]; exact h.valid hx.text.bvalid,
      by rw [e, e']; exact hx.text.btag, by rw [e, e']; exact hx.text.bytes⟩
  · rw [e]; exact h.fixed hx.text.bvalid hx.bfixed

/-- Adding an entry to the table of global variables. -/
theorem moduleDefine_add {x v : Int} {u : Value} (hw : World s W mes σ) (hx : IsKey s W x) (hnew : W.glob x = none)
    (hv : IsVal s W mes v u) (hr : Room s 4) :
    ∃ s' p, moduleDefine s x v = ok (v, s') ∧ Later W s (W.add p) s' ∧ s'.free ≤ s.free + 4 ∧
      World s' (W.add p) mes ⟨σ.vals ++ [u], fun y => if y = x then some σ.vals.length else σ.globals y⟩ ∧
      ∃ b, Frame (· = b) s s' ∧ ¬ W.src b ∧ ∃ i : Nat, (i : Int) < (s.cell (bucketsOf s (s.cell ((s.cell s.m0).cdr + 5)).car)).car ∧
        b = (s.cell (bucketsOf s (s.cell ((s.cell s.m0).cdr + 5)).car)).cdr + i := by
  obtain ⟨m1, m2, m3, m4, m5, m6, m7⟩ := hw.module
  obtain ⟨n, H, hg, hH⟩ := hw.table
  have hsr : structRef s s.m0 5 = ok ((s.cell ((s.cell s.m0).cdr + 5)).car, s) := by
    simp only [structRef, St.rd_ok m1, ok_bind, assert_true m2, assert_true m3]
    exact fetch_ref m5 m6 rfl hg.valid (by rw [hg.tag]; decide)
  generalize ht : (s.cell ((s.cell s.m0).cdr + 5)).car = t at hg hsr
  -- the size
  have e1 := push_ext s { tag := .number, car := 0, cdr := (n : Int) }
  have f1 : (s.push { tag := .number, car := 0, cdr := (n : Int) }).free = s.free + 1 := by simp
  have r1 : Room (s.push { tag := .number, car := 0, cdr := (n : Int) }) 3 := hr.step e1 (by simp; omega)
  have v1 := hr.free_valid { tag := .number, car := 0, cdr := (n : Int) }
  have c1 : (s.push { tag := .number, car := 0, cdr := (n : Int) }).cell s.free = { tag := .number, car := 0, cdr := (n : Int) } := by simp
  have hsz := hg.size_ok (hr.mono (by decide))
  generalize s.push { tag := .number, car := 0, cdr := (n : Int) } = s1 at *
  have hg1 := e1.grow.globals hg
  have hw1 := e1.world hw
  have hx1 := hx.later (e1.grow.later W)
  obtain ⟨hv0, hh1, hh2⟩ := hashq_ok hx1.text hx1.tag hx1.ascii hg.pos hg.small
  have hsl := slot_lt (n := n) (W.name x) hg.pos
  have hu : s1.Valid c_unspecified ∧ (s1.cell c_unspecified).tag = .special := World.fixed_cell hw1 (by decide) (by decide)
  obtain ⟨b1, b2⟩ := hg1.bucket_cases hu hsl
  -- the list of the bucket
  have hlist : ∃ b, (if (s1.cell (s1.cell ((s1.cell (bucketsOf s1 t)).cdr + (slot n (W.name x) : Int))).car).tag ≠ .pair then c_nil
      else (s1.cell ((s1.cell (bucketsOf s1 t)).cdr + (slot n (W.name x) : Int))).car) = b ∧
      Items s1 W.chg b ((H.filter (fun e => slot n (W.name e.1) = slot n (W.name x))).map (·.2)) := by
    rcases b2 with ⟨b2, b3⟩ | ⟨b2, b3, b4⟩
    · exact ⟨c_nil, by rw [if_pos]; rw [b3]; decide, by rw [b2]; exact .nil⟩
    · exact ⟨_, by rw [if_neg]; simp [b3], b4⟩
  obtain ⟨b, hb1, hb2⟩ := hlist
  -- the entry and the new list
  have e2 := push_ext s1 { tag := .pair, car := x, cdr := v }
  have f2 : (s1.push { tag := .pair, car := x, cdr := v }).free = s1.free + 1 := by simp
  have r2 : Room (s1.push { tag := .pair, car := x, cdr := v }) 2 := r1.step e2 (by simp; omega)
  have c2 : (s1.push { tag := .pair, car := x, cdr := v }).cell s1.free = { tag := .pair, car := x, cdr := v } := by simp
  have k2 := cons_ok (r1.mono (by decide)) x v
  generalize s1.push { tag := .pair, car := x, cdr := v } = s2 at *
  have e3 := push_ext s2 { tag := .pair, car := s1.free, cdr := b }
  have f3 : (s2.push { tag := .pair, car := s1.free, cdr := b }).free = s2.free + 1 := by simp
  have r3 : Room (s2.push { tag := .pair, car := s1.free, cdr := b }) 1 := r2.step e3 (by simp; omega)
  have c3 : (s2.push { tag := .pair, car := s1.free, cdr := b }).cell s2.free = { tag := .pair, car := s1.free, cdr := b } := by simp
  have v3 := r2.free_valid { tag := .pair, car := s1.free, cdr := b }
  have k3 := cons_ok (r2.mono (by decide)) s1.free b
  generalize s2.push { tag := .pair, car := s1.free, cdr := b } = s3 at *
  have e13 : Ext s1 s3 := e2.trans e3
  have e03 : Ext s s3 := e1.trans e13
  have hg3 := e03.grow.globals hg
  have eb : bucketsOf s3 t = bucketsOf s1 t := by
    have q1 := e13.grow.same _ hg1.valid.2
    have q2 := e13.grow.same _ hg1.rvalid.2
    unfold bucketsOf; rw [q1, q2]
  have ev : s3.cell (bucketsOf s1 t) = s1.cell (bucketsOf s1 t) := e13.grow.same _ hg1.vvalid.2
  have eb1 : bucketsOf s1 t = bucketsOf s t := by
    have q1 := e1.grow.same _ hg.valid.2
    have q2 := e1.grow.same _ hg.rvalid.2
    unfold bucketsOf; rw [q1, q2]
  have ev1 : s1.cell (bucketsOf s t) = s.cell (bucketsOf s t) := e1.grow.same _ hg.vvalid.2
  have hcellv : s3.Valid ((s3.cell (bucketsOf s3 t)).cdr + (slot n (W.name x) : Int)) := hg3.bvalid _ hsl
  obtain ⟨s4, g1, g2, g3, g4⟩ := setEntry_raw r3 hcellv (e := s2.free) (v := .obj s2.free)
    ⟨rfl, v3, by rw [c3]; exact (by decide : Solid .pair)⟩
  have hbt3 := hg3.btag _ hsl
  have hbm3 := hg3.bmut _ hsl
  rw [eb, ev, eb1, ev1] at hcellv g1 g2 g3 hbt3 hbm3
  generalize hB : (s.cell (bucketsOf s t)).cdr = B at *
  have hbv := hg.bvalid _ hsl
  have hbt := hg.btag _ hsl
  have hbs := hg.bsrc _ hsl
  rw [hB] at hbv hbt hbs
  have hcelle : ∀ a, a < s.free → a ≠ B + (slot n (W.name x) : Int) → s4.cell a = s.cell a := fun a h1 h2 => by
    rw [g2.same a (by omega) h2, e03.grow.same a h1]
  have hlt1 : s.free ≤ s1.free := by omega
  have hfle : s.free ≤ s4.free := by have := g2.le; omega
  have hlat : Later W s (W.add s1.free) s4 := by
    refine ⟨hfle, fun a h1 h2 => hcelle a h1 ?_, fun a h1 => ?_, fun a h1 h2 _ => ?_, Nat.le_succ _, fun l hl => if_pos hl, fun a h1 h => h.resolve_right (by omega),
      fun _ _ h _ => .inl h, rfl,
      fun a h1 h2 _ => hcelle a h1 ?_, fun _ _ h => h, fun _ _ h => h, fun _ _ h _ => h, rfl⟩
    · rintro rfl; exact h2 hbm3
    · by_cases e : a = B + (slot n (W.name x) : Int)
      · rw [e, g3.1, hbt]
      · rw [hcelle a h1 e]
    · rw [hcelle a h1]; rintro rfl; rw [hbt] at h2; cases h2
    · rintro rfl; exact hbs h2
  have ens : s1.free ≠ B + (slot n (W.name x) : Int) := by have := hbv.2; omega
  have enq : s2.free ≠ B + (slot n (W.name x) : Int) := by have := hbv.2; omega
  have cp : s4.cell s1.free = { tag := .pair, car := x, cdr := v } := by
    rw [g2.same _ (by omega) ens, e3.grow.same _ (by omega), c2]
  have cq : s4.cell s2.free = { tag := .pair, car := s1.free, cdr := b } := by rw [g2.same _ (by omega) enq, c3]
  have hvp : s4.Valid s1.free := ⟨by have := hw.base; simp only [c_symbol_max] at this; omega, by have := g2.le; omega⟩
  have hqp : FixedPair s4 (W.add s1.free).chg s2.free := by
    refine ⟨by have := hw.base; simp only [c_symbol_max, c_nil] at *; omega, ⟨by have := hw.base; simp only [c_symbol_max] at this; omega, by have := g2.le; omega⟩,
      by rw [cq], ?_⟩
    rintro (h | h)
    · have := hw.below _ h; omega
    · omega
  refine ⟨s4, s1.free, ?_, hlat, by omega, ?_, _, e03.frame.trans g2, hbs, slot n (W.name x), by rw [hg.vlength]; omega, rfl⟩
  · simp only [moduleDefine, hsr, ok_bind, hashqSet, hsz, St.cdr_ok v1, c1, hh1, hh2, hashSet_, hg1.buckets_ok, hg1.bucket_ok hu hsl, St.rd_ok b1, hb1,
      acons, k2, k3, vectorSet]
    have hvv := hg3.vvalid; rw [eb] at hvv
    have hvt := hg3.vtag; rw [eb] at hvt
    have hvl := hg3.vlength; rw [eb] at hvl
    rw [St.rd_ok hvv]
    simp only [ok_bind, assert_true hvt, hvl, assert_true (show ((slot n (W.name x) : Nat) : Int) < n by omega)]
    rw [ev, eb1, ev1, hB, g1]
    rfl
  · have em := hlat.keep m1 m4
    have er := hlat.keep m5 m7
    have hm0 : s4.m0 = s.m0 := by have := (e03.frame.trans g2).rest; rw [← this]
    have hpair : ∀ l, l < W.count → s4.cell (W.loc l) = s.cell (W.loc l) := fun l hl => by
      obtain ⟨h1, h2⟩ := hw.pair l hl
      refine hcelle _ h1.2 ?_
      intro e; rw [e, hbt] at h2; cases h2
    have hadd : ∀ l, l < W.count + 1 → l < W.count ∨ l = W.count ∧ ¬ l < W.count := fun l hl => by omega
    refine ⟨Int.le_trans hw.base hfle, hw.tags.later hw.base hlat, ?_, ?_, ?_, ?_, ?_, ?_, ?_, ?_, ?_, ?_, fun y l hy => ?_,
      fun a ha => .inl (hw.source a ha), fun l hl hs => ?_⟩
    · rw [hcelle _ (by have := hw.base; simp only [c_symbol_max, c_symbol_begin] at *; omega), hw.begin]
      intro e
      have := hw.tags c_symbol_begin (by decide) (by decide)
      rw [e, hbt, ← e] at this
      simp [c_symbol_begin] at this
    · show W.count + 1 = _
      simp [hw.count]
    · rintro a (h | rfl)
      · have := hw.below a h; omega
      · exact hvp.2
    · intro l hl
      rcases hadd l hl with h | ⟨rfl, h⟩
      · exact .inl (by show W.chg (if _ then _ else _); rw [if_pos h]; exact hw.chg l h)
      · exact .inr (if_neg h)
    · intro l l' hl hl' he
      have he' : (if l < W.count then W.loc l else s1.free) = (if l' < W.count then W.loc l' else s1.free) := he
      rcases hadd l hl with h | ⟨rfl, h⟩ <;> rcases hadd l' hl' with h' | ⟨rfl, h'⟩
      · rw [if_pos h, if_pos h'] at he'; exact hw.inj l l' h h' he'
      · rw [if_pos h, if_neg h'] at he'
        have := (hw.pair l h).1.2; omega
      · rw [if_neg h, if_pos h'] at he'
        have := (hw.pair l' h').1.2; omega
      · rfl
    · intro l hl
      show s4.Valid (if _ then _ else _) ∧ (s4.cell (if _ then _ else _)).tag = _
      rcases hadd l hl with h | ⟨rfl, h⟩
      · rw [if_pos h, hpair l h]
        exact ⟨hlat.valid (hw.pair l h).1, (hw.pair l h).2⟩
      · rw [if_neg h]; exact ⟨hvp, by rw [cp]⟩
    · intro l w hlw
      show IsVal _ _ _ (s4.cell (if _ then _ else _)).cdr _
      by_cases h : l < W.count
      · rw [if_pos h, hpair l h]
        simp only [List.getElem?_append_left (show l < σ.vals.length by rw [← hw.count]; exact h)] at hlw
        exact (hw.holds l w hlw).later hlat
      · rw [if_neg h, cp]
        simp only [List.getElem?_append_right (show σ.vals.length ≤ l by rw [← hw.count]; omega)] at hlw
        have : w = u := by
          cases hl0 : l - σ.vals.length with
          | zero => rw [hl0] at hlw; simpa using hlw.symm
          | succ i => rw [hl0] at hlw; simp at hlw
        rw [this]
        exact hv.later hlat
    · rw [hm0, em, er]
      refine ⟨hlat.valid m1, m2, m3, hlat.fixed m1 m4, hlat.valid m5, m6, hlat.fixed m5 m7⟩
    · rw [hm0, em, er, ht]
      refine ⟨n, (x, s1.free) :: H, ?_, fun y => ?_⟩
      · have q := hlat.keep hg.valid hg.fixed
        have qr := hlat.keep hg.rvalid hg.rfixed
        have qb : bucketsOf s4 t = bucketsOf s t := by unfold bucketsOf; rw [q, qr]
        have qv := hlat.keep hg.vvalid hg.vfixed
        refine ⟨hlat.valid hg.valid, by rw [q]; exact hg.tag, by rw [q]; exact hg.length, hlat.fixed hg.valid hg.fixed,
          by rw [q]; exact hg.size.later hg.sfixed hlat, by rw [q]; exact hlat.fixed hg.size.valid hg.sfixed,
          by rw [q]; exact hlat.valid hg.rvalid, by rw [q, qr]; exact hg.rtag, by rw [q]; exact hlat.fixed hg.rvalid hg.rfixed,
          by rw [qb]; exact hlat.valid hg.vvalid, by rw [qb, qv]; exact hg.vtag, by rw [qb, qv]; exact hg.vlength,
          by rw [qb]; exact hlat.fixed hg.vvalid hg.vfixed, hg.pos, hg.small, ?_, ?_, ?_, ?_, ?_, ?_, ?_⟩
        · rw [qb, qv]; exact fun i hi => hlat.valid (hg.bvalid i hi)
        · rw [qb, qv]; exact fun i hi => by rw [hlat.tag _ (hg.bvalid i hi).2]; exact hg.btag i hi
        · rw [qb, qv]; exact fun i hi => hlat.still _ (hg.bvalid i hi).2 (hg.bmut i hi) (hg.bsrc i hi)
        · rw [qb, qv]; exact hg.bsrc
        · rw [qb, qv]
          intro i hi
          rw [show (W.add s1.free).name = W.name from rfl]
          by_cases hii : i = slot n (W.name x)
          · subst hii
            rw [List.filter_cons_of_pos (by simp)]
            refine ⟨fun h => absurd h (List.cons_ne_nil _ _), fun _ => ?_⟩
            rw [hB, g3.2, List.map_cons]
            have it : Items s4 (W.add s1.free).chg s2.free ((s4.cell s2.free).car :: (H.filter (fun e => slot n (W.name e.1) = slot n (W.name x))).map (·.2)) := by
              refine .cons hqp ?_
              rw [cq]
              have l14 : Later W s1 (W.add s1.free) s4 := by
                refine ⟨by have := g2.le; omega, fun a h1 h2 => ?_, fun a h1 => ?_, fun a h1 h2 _ => ?_, Nat.le_succ _, fun l hl => if_pos hl, fun a h1 h => h.resolve_right (by omega),
      fun _ _ h _ => .inl h, rfl,
                  fun a h1 h2 _ => ?_, fun _ _ h => h, fun _ _ h => h, fun _ _ h _ => h, rfl⟩
                · rw [g2.same a (by omega), e13.grow.same a h1]; rintro rfl; exact h2 hbm3
                · by_cases e : a = B + (slot n (W.name x) : Int)
                  · rw [e, g3.1, ← hbt, e1.grow.same _ hbv.2]
                  · rw [g2.same a (by omega) e, e13.grow.same a h1]
                · rw [g2.same a (by omega), e13.grow.same a h1]; rintro rfl; rw [e1.grow.same _ hbv.2, hbt] at h2; cases h2
                · rw [g2.same a (by omega), e13.grow.same a h1]; rintro rfl; exact hbs h2
              exact hb2.later l14
            rw [cq] at it
            exact it
          · rw [List.filter_cons_of_neg (by simpa using Ne.symm hii), hcelle _ (hg.bvalid i hi).2 (by rw [hB]; omega)]
            exact ⟨(hg.bucket i hi).1, fun hne => ((hg.bucket i hi).2 hne).later hlat⟩
        · intro e he
          rcases List.mem_cons.1 he with rfl | he
          · exact ⟨hvp, by rw [cp], by rw [cp], by rw [hlat.tag _ hx.text.valid.2]; exact hx.tag, hlat.valid hx.text.valid,
              fun hc => by have := hw.below _ (hw.source _ hc); simp only at this; omega⟩
          · obtain ⟨h1, h2, h3, h4, h5, h6⟩ := hg.entry e he
            exact ⟨hlat.valid h1, by rw [hlat.tag _ h1.2]; exact h2, by rw [hlat.car _ h1.2 h2 h6]; exact h3, by rw [hlat.tag _ h5.2]; exact h4,
              hlat.valid h5, hlat.unsrc h1 h6⟩
        · intro e he
          rcases List.mem_cons.1 he with rfl | he
          · exact hx.ascii
          · exact hg.ascii e he
      · show lookup y ((x, s1.free) :: H) = Option.map (W.add s1.free).loc (if y = x then some σ.vals.length else σ.globals y)
        unfold lookup
        by_cases hyx : y = x
        · rw [if_pos hyx, if_pos hyx.symm]
          show _ = some (if _ then _ else _)
          rw [if_neg (by rw [hw.count]; omega)]
        · rw [if_neg hyx, if_neg (Ne.symm hyx), hH]
          cases hgy : σ.globals y with
          | none => rfl
          | some l => simp only [Option.map_some]; show _ = some (if _ then _ else _); rw [if_pos (hw.global y l hgy)]
    · intro y l hl
      show l < W.count + 1
      simp only at hl
      split at hl
      · cases hl; rw [hw.count]; omega
      · have := hw.global y l hl; omega
    · have := hw.glob y l hy
      simp only
      rw [if_neg]
      · exact this
      · rintro rfl; exact absurd (hnew.symm.trans hy) (by simp)
    · have hs' : W.src (if l < W.count then W.loc l else s1.free) := hs
      rcases hadd l hl with h | ⟨rfl, h⟩
      · rw [if_pos h] at hs'; exact hw.lsrc l h hs'
      · rw [if_neg h] at hs'
        have := hw.below _ (hw.source _ hs'); omega

theorem moduleDefine_ok {x v : Int} {u : Value} (hw : World s W mes σ) (hx : IsName s W x) (hnew : σ.globals x = none)
    (hv : IsVal s W mes v u) (hr : Room s 4) :
    ∃ s' p, moduleDefine s x v = ok (v, s') ∧ Later W s (W.add p) s' ∧ s'.free ≤ s.free + 4 ∧
      World s' (W.add p) mes ⟨σ.vals ++ [u], fun y => if y = x then some σ.vals.length else σ.globals y⟩ ∧
      ∃ b, Frame (· = b) s s' ∧ ¬ W.src b := by
  obtain ⟨s', p, h1, h2, h3, h4, b, h5, h6, -⟩ := moduleDefine_add hw hx.key (by
    cases hg : W.glob x with
    | none => rfl
    | some l => rw [hw.glob x l hg] at hnew; cases hnew) hv hr
  exact ⟨s', p, h1, h2, h3, h4, b, h5, h6⟩

/-- The variable that is defined. -/
theorem declare_ok {x : Int} (hw : World s W mes σ) (hx : IsName s W x) (hN : N x) (hs : IsScope s W N s.r0 fun _ => none) (hr : Ready s 5 d) :
    ∃ F entry s1 s2 W2, (∀ fuel, F ≤ fuel → moduleVariable s fuel s.r0 x = ok (entry, s1)) ∧
      (entry = c_f ∧ moduleDefine s1 x c_f = ok (c_f, s2) ∨ entry ≠ c_f ∧ s1 = s2) ∧ Adv W s W2 s2 5 ∧ World s2 W2 mes (σ.declare x).2 ∧ s2.r0 = s.r0 ∧ s2.r1 = s.r1 ∧
      (σ.declare x).2.globals x = some (σ.declare x).1 ∧ W2.src = W.src ∧ W2.cur = W.cur ∧ ∀ a, W.src a → a < s.free → s2.cell a = s.cell a := by
  obtain ⟨F, s1, e1, e2, e3⟩ := moduleVariable_ok hw hs.whole hx hN (hr.room.mono (by omega))
  have hw1 := e1.world hw
  have a1 := e1.adv (j := 1) (by omega) W
  unfold Store.declare Store.find at *
  simp only [Option.none_or] at e3
  cases hg : σ.globals x with
  | some l =>
    rw [hg] at e3
    have hne : W.loc l ≠ c_f := by
      intro e
      have := (hw.pair l (hw.global x l hg)).2
      rw [e, (World.false_ hw).2] at this; cases this
    exact ⟨F, W.loc l, s1, s1, W, e3, .inr ⟨hne, rfl⟩, a1.mono (by omega), hw1, e1.r0, e1.r1, hg, rfl, rfl,
      fun a _ ha => e1.grow.same a ha⟩
  | none =>
    rw [hg] at e3
    have hf1 := World.false_ hw1
    obtain ⟨s2, p, g1, g2, g3, g4, bb, g5, g6⟩ := moduleDefine_ok hw1 (hx.later a1.later) hg (v := c_f) (u := .obj c_f)
      (.obj hf1.1 (by rw [hf1.2]; decide) (by decide)) ((hr.adv (k' := 4) a1 (by omega)).room)
    exact ⟨F, c_f, s1, s2, W.add p, e3, .inl ⟨rfl, g1⟩, (a1.trans (W'' := W.add p) (j := 4) ⟨g5.keeps, g2, g3⟩).mono (by omega), g4,
      g5.r0.trans e1.r0, g5.r1.trans e1.r1, by simp, rfl, rfl, fun a hs ha => by
        rw [g5.same a (by have := e1.grow.le; omega) (fun hc => g6 (hc ▸ hs)), e1.grow.same a ha]⟩

/-! ### The same in corresponding memories -/

theorem Gc.Rel.setR2 (h : Rel M P f s s') (he : ¬ M.exact) {a a' : Int} (ha : At P f a a') :
    Rel M P f { s with r2 := a } { s' with r2 := a' } :=
  h.machine he h.at0 h.at1 ha h.at3 h.iso.sp h.sound'.sp.1 h.sound'.sp.2 fun _ h1 h2 => h.atStack h1 h2

theorem moduleDefine_sim (h : Rel M P f s s') {x x' v v' : Int} (hw : World s W mes σ) (hx : IsName s W x) (hr : Room s 1)
    (hx' : At P f x x') (hv : At P f v v') : Sim M P f (moduleDefine s x v) (moduleDefine s' x' v') := by
  obtain ⟨m1, m2, m3, m4, m5, m6, m7⟩ := hw.module
  obtain ⟨n, H, hg, hH⟩ := hw.table
  have hsr : structRef s s.m0 5 = ok ((s.cell ((s.cell s.m0).cdr + 5)).car, s) := by
    simp only [structRef, St.rd_ok m1, ok_bind, assert_true m2, assert_true m3]
    exact fetch_ref m5 m6 rfl hg.valid (by rw [hg.tag]; decide)
  have hgr := push_ext s { tag := .number, car := 0, cdr := (n : Int) }
  have hsz := hg.size_ok hr
  have hxl := hx.later (hgr.grow.later W)
  obtain ⟨y, e1, e2⟩ := hashq_ok hxl.text (.inl hxl.tag) hxl.ascii hg.pos hg.small
  unfold moduleDefine
  refine (structRef_sim h 5 h.atM).bindAt fun P1 f1 g g' s1 s1' h1 hg1 m1 q1 => ?_
  rw [show ((5 : Nat) : Int) = 5 from rfl, hsr] at q1
  cases q1
  unfold hashqSet
  refine (structRef_sim h1 3 hg1).bindAt fun P2 f2 r r' s1 s2' h2 hr2 m2 q2 => ?_
  rw [show ((3 : Nat) : Int) = 3 from rfl, hsz] at q2
  cases q2
  have hcell : (s.push { tag := .number, car := 0, cdr := (n : Int) }).cell s.free = { tag := .number, car := 0, cdr := (n : Int) } := by simp
  generalize s.push { tag := .number, car := 0, cdr := (n : Int) } = s1 at *
  obtain ⟨w1, w2⟩ := h2.atValid hr2
  have hnum : (s2'.cell r').cdr = n := by rw [h2.number hr2 (by rw [hcell]), hcell]
  simp only [St.cdr_ok w1, St.cdr_ok w2, ok_bind, hcell, hnum]
  have hx2 := (hx'.mono m1).mono m2
  have hh := hashq_sim h2 (n : Int) hx2 hxl.tag
  rw [e1] at hh
  obtain ⟨_, hh, rfl⟩ := hh
  simp only [e1, hh, ok_bind, e2]
  unfold hashSet_
  refine (structRef_sim h2 4 (hg1.mono m2)).bindAt fun P3 f3 b b' s3 s3' h3 hb3 m3 q3 => ?_
  refine (h3.atVector _ hb3).bindAt fun P4 f4 c c' s4 s4' h4 hc4 m4 q4 => ?_
  obtain ⟨z1, z2⟩ := h4.atValid hc4
  have hl : At P4 f4 (if (s4.cell c).tag ≠ .pair then c_nil else c) (if (s4.cell c).tag ≠ .pair then c_nil else c') := by
    split
    · exact h4.atFixed (by decide) (by decide)
    · exact hc4
  simp only [St.rd_ok z1, St.rd_ok z2, ok_bind, h4.atTag hc4, acons, Res.bind_assoc']
  refine (h4.cons ((hx2.mono m3).mono m4) ((((hv.mono m1).mono m2).mono m3).mono m4)).bindAt fun P5 f5 p p' s5 s5' h5 hp5 m5 q5 => ?_
  refine (h5.cons hp5 (hl.mono m5)).bindAt fun P6 f6 p p' s6 s6' h6 hp6 m6 q6 => ?_
  have hb6 := ((hb3.mono m4).mono m5).mono m6
  have := vectorSet_sim h6 (slot n (W.name x)) hb6.1 hp6.1
  rw [← hb6.2, ← hp6.2] at this
  refine this.bindAt fun P7 f7 p p' s7 s7' h7 _ m7 q7 => ?_
  exact Sim.okAt h7 (((((((hv.mono m1).mono m2).mono m3).mono m4).mono m5).mono m6).mono m7)

/-- The frame for the value, with the entry that hides the variable. -/
def defineValue (s : St) (d y : Int) : Res St :=
  ({ s with r2 := s.r1 } : St).cdr d >>= fun dd => ({ s with r2 := s.r1 } : St).car dd >>= fun e =>
    cons { s with r2 := s.r1 } y y >>= fun p => cons p.2 p.1 p.2.r0 >>= fun a => pushCc a.2 e a.2.r2 a.1 c_vm_eval_define

theorem defineValue_sim (h : Rel M P f s s') (hm : ¬ M.exact) {a a' y y' : Int} (ha : At P f a a') (hy : At P f y y') (ht : (s.cell a).tag = .pair)
    (ht2 : (s.cell (s.cell a).cdr).tag = .pair) : SimS M P f (defineValue s a y) (defineValue s' a' y') := by
  have hr := h.setR2 hm h.at1
  have p1 := hr.pairs ha ht
  have p2 := hr.pairs p1.cdr ht2
  unfold defineValue
  rw [St.cdr_ok p1.valid, St.cdr_ok p1.valid', ok_bind, ok_bind, St.car_ok p2.valid, St.car_ok p2.valid', ok_bind, ok_bind]
  refine (hr.cons hy hy).bindAt fun P1 f1 q q' t t' h1 hq m1 q1 => ?_
  refine (h1.cons hq h1.at0).bindAt fun P2 f2 q q' t t' h2 hq m2 q2 => ?_
  exact pushCc_sim h2 hm ((p2.car.mono m1).mono m2) h2.at2 hq (by decide)

theorem moves_define (x : Int) (gp mp : Option Bool) {y : Int} {e : Expr} (hr : Ready s 5 d) (hw : World s W mes σ)
    (hc : IsForm s W mes N s.r1 (.define y e)) (hs : IsScope s W N s.r0 fun _ => none)
    (hg : (s.cell (s.cell s.r0).car).car ≠ c_closure) : Moves K ⟨.eval, s, x, gp, mp⟩ := by
  cases hc with
  | define hp hh h1 hx hi hn h2 he =>
    obtain ⟨F0, entry, s0, s2, W2, e0, e1, e2, e3, e4, e5, e6, -⟩ := declare_ok hw hi hn hs hr
    obtain ⟨F, s1, g1, g2, g3⟩ := moduleVariable_ok hw hs.whole hi hn (hr.room.mono (by omega))
    refine .sameFuel (F0 + F) fun fuel hf M P f s' x' hm h => ?_
    have l2 := e2.later
    have p1 := h.pairs h.at1 hp.tag
    have p2 := h.pairs p1.cdr h1.tag
    have p0 := h.pairs h.at0 hs.pair.tag
    have p00 := h.pairs p0.car hs.tag
    obtain ⟨c1, c2, c3, c4, c5, c6, c7, c8, c9, c10⟩ := Pairs.heads h p1.car
    have at2 := p2.car
    rw [hx] at at2
    obtain ⟨v1, v2⟩ := h.atValid at2
    simp only [step, St.rd_ok p1.valid, St.rd_ok p1.valid', ok_bind, p1.tag, p1.tag', c1, c2, c3, c4, c5, c6, c7, c8, c9, c10, hh,
      show ¬ (c_symbol_define = c_symbol_pmatch_car) by decide, show ¬ (c_symbol_define = c_symbol_pmatch_cdr) by decide,
      show ¬ (c_symbol_define = c_symbol_quote) by decide, show ¬ (c_symbol_define = c_symbol_begin) by decide,
      show ¬ (c_symbol_define = c_symbol_lambda) by decide, show ¬ (c_symbol_define = c_symbol_if) by decide,
      show ¬ (c_symbol_define = c_symbol_set_x) by decide, show ¬ (c_symbol_define = c_vm_macro_expand) by decide,
      show ¬ (c_symbol_define = c_symbol_define_macro) by decide, if_false, true_or, if_true, decide_false]
    simp only [evalDefineForm, St.car_ok p0.valid, St.car_ok p0.valid', St.car_ok p00.valid, St.car_ok p00.valid', ok_bind,
      St.cdr_ok p1.valid, St.cdr_ok p1.valid', St.car_ok p2.valid, St.car_ok p2.valid', hx, St.rd_ok v1, St.rd_ok v2, h.atTag at2, hi.tag,
      ne_eq, h.atConst p00.car (c := c_closure) (by decide) (by decide), hg, not_false_eq_true, decide_true, if_true, reduceCtorEq, if_false,
      Bool.false_eq_true, Res.bind_assoc']
    have rest : ∀ P1 f1 t', Rel M P1 f1 s2 t' → (∀ a, P a → P1 a ∧ f1 a = f a) →
        SimR M P1 f1 (RelVm M) (defineValue s2 (s.cell s.r1).cdr y >>= fun t => ok ⟨.eval, t, x, some true, some false⟩)
          (defineValue t' (s'.cell s'.r1).cdr (s'.cell (s'.cell s'.r1).cdr).car >>= fun t => ok ⟨.eval, t, x', some true, some false⟩) :=
      fun P1 f1 t' h' m' => (defineValue_sim h' hm (p1.cdr.mono m') (at2.mono m') (h1.later l2).tag
        (by rw [h1.cell_eq l2]; exact (h2.later l2).tag)).bind fun _ _ _ _ h _ _ => sim_go (by decide) hm h
    refine (moduleVariable_sim h hw hs.whole hi hn (hr.room.mono (by omega)) fuel h.at0 at2).bindAt fun P1 f1 z z' t t' h1' hz m1 q1 => ?_
    rw [e0 fuel (by omega)] at q1
    cases q1
    have hs0 : s1 = s0 := by have := (g3 fuel (by omega)).symm.trans (e0 fuel (by omega)); cases this; rfl
    subst hs0
    have hw0 := g1.world hw
    have a0 := g1.adv (j := 1) (by omega) W
    simp only [h1'.atConst hz (c := c_f) (by decide) (by decide)]
    rcases e1 with ⟨rfl, e1⟩ | ⟨e1, rfl⟩
    · simp only [if_true, Res.bind_assoc', ok_bind]
      refine (moduleDefine_sim h1' hw0 (hi.later a0.later) (hr.adv (k' := 1) a0 (by omega)).room (at2.mono m1)
        (h1'.atFixed (by decide) (by decide))).bindAt fun P2 f2 z z' t t' h2' hz m2 q2 => ?_
      rw [e1] at q2
      cases q2
      have := rest P2 f2 t' h2' fun a ha => ⟨(m2 a (m1 a ha).1).1, by rw [(m2 a (m1 a ha).1).2, (m1 a ha).2]⟩
      simpa only [defineValue, Res.bind_assoc'] using this
    · simp only [if_neg e1, Res.bind_assoc', ok_bind]
      simpa only [defineValue, Res.bind_assoc'] using rest P1 f1 t' h1' m1

theorem moves_evalDefine (x : Int) {y : Int} (hr : Ready s 1 d) (hw : World s W mes σ) (hs : IsScope s W N s.r0 fun _ => none)
    (hi : IsName s W y) (hN : N y) (h0 : FixedPair s W.chg s.r2) (h1 : FixedPair s W.chg (s.cell s.r2).cdr)
    (hx : (s.cell (s.cell s.r2).cdr).car = y) : Moves K ⟨.evalDefine, s, x, some true, some false⟩ := by
  refine .same (by decide) fun fuel M P f s' x' hm h => ?_
  have p1 := h.pairs h.at2 h0.tag
  have p2 := h.pairs p1.cdr h1.tag
  have at2 := p2.car
  rw [hx] at at2
  obtain ⟨v1, v2⟩ := h.atValid at2
  simp only [step, storeDefine, St.cdr_ok p1.valid, St.cdr_ok p1.valid', St.car_ok p2.valid, St.car_ok p2.valid', ok_bind, hx,
    St.rd_ok v1, St.rd_ok v2, h.atTag at2, hi.tag, reduceCtorEq, if_false, if_true, Bool.false_eq_true, Res.bind_assoc']
  refine (moduleVariable_sim h hw hs.whole hi hN hr.room fuel h.at0 at2).bindAt fun P1 f1 z z' t t' h1 hz m1 q1 => ?_
  have ha := h1.at1
  dsimp only
  rw [hz.2, ha.2]
  exact Sim.bindAt (setCdrX_sim h1 hz.1 ha.1) fun _ _ _ _ _ _ h2 _ _ _ =>
    sim_go (by decide) hm (h2.setR1 hm (h2.atFixed (by decide) (by decide)))

/-! ### Top level forms -/

/-- The machine evaluates the top level form `f`. -/
def TopOk (mv : Prop) (K : Calls) (mes : Bool) (k d : Nat) (σ : Store) (f : Toplevel) (v : Value) (σ' : Store) : Prop :=
  ∀ W s N, Ready s k d → World s W mes σ → IsForm s W mes N s.r1 f → IsScope s W N s.r0 (fun _ => none) →
    (s.cell (s.cell s.r0).car).car ≠ c_closure → ∀ x gp mp, ∃ W' s' x' gp' mp',
      Walk mv K ⟨.eval, s, x, gp, mp⟩ ⟨.dispatch, s', x', gp', mp'⟩ ∧ Popped s s' ∧ Later W s W' s' ∧ World s' W' mes σ' ∧
      s'.free ≤ s.free + k ∧ IsVal s' W' mes s'.r1 v

theorem topOk_expr {e : Expr} {v : Value} (h : EvalOk mv K mes k d (fun _ => none) σ e v σ') : TopOk mv K mes k d σ (.expr e) v σ' := by
  intro W s N hr hw hc hs _ x gp mp
  cases hc with
  | expr hc =>
    obtain ⟨W', s', x', h1, h2, h3, h4, h5, h6⟩ := h W s N hr hw hc hs x gp mp
    exact ⟨W', s', x', gp, mp, h1, h2, h3, h4, h5, h6⟩

/-- Storing the value; the variable is named by `t`, or by the first element of the list `t`. -/
theorem store_at {t x : Int} {v : Value} {l : Nat} (hr : Ready s 1 d) (hw : World s W mes σ) (hs : IsScope s W N s.r0 fun _ => none)
    (hi : IsName s W x) (hN : N x) (h0 : FixedPair s W.chg s.r2) (h1 : FixedPair s W.chg (s.cell s.r2).cdr)
    (ht : (s.cell (s.cell s.r2).cdr).car = t) (htv : s.Valid t) (hx : (if (s.cell t).tag = .pair then (s.cell t).car else t) = x)
    (hl : σ.globals x = some l) (hv : IsVal s W mes s.r1 v) :
    ∃ F s', (∀ fuel, F ≤ fuel → storeDefine s fuel true false = ok s') ∧ Adv W s W s' 1 ∧
      World s' W mes { σ with vals := σ.vals.set l v } ∧ s'.r1 = c_unspecified := by
  obtain ⟨F, s1, e1, e2, e3⟩ := moduleVariable_ok hw hs.whole hi hN hr.room
  unfold Store.find at e3
  simp only [Option.none_or, hl, Option.map_some, Option.getD_some] at e3
  have hlt := hw.global x l hl
  have hw1 := e1.world hw
  obtain ⟨g1, g2⟩ := hw1.pair l hlt
  have hv1 : IsVal s1 W mes s.r1 v := hv.later (e1.grow.later W)
  obtain ⟨k1, k2⟩ := hw1.set hlt hv1
    (s' := { s1.upd (W.loc l) { s1.cell (W.loc l) with cdr := s.r1 } with r1 := c_unspecified })
    (fun b => by
      by_cases hb : b = W.loc l
      · subst hb; simp
      · rw [if_neg hb]; exact St.upd_cell_ne _ hb) rfl rfl
  have k0 : Adv W s1 W { s1.upd (W.loc l) { s1.cell (W.loc l) with cdr := s.r1 } with r1 := c_unspecified } 0 :=
    ⟨⟨⟨rfl, rfl, rfl, rfl, rfl⟩, rfl, fun _ _ _ => rfl⟩, k1, by show s1.free ≤ s1.free + ((0 : Nat) : Int); omega⟩
  refine ⟨F, _, fun fuel hf => ?_, (e1.adv (j := 1) (by omega) W).trans k0, k2, rfl⟩
  simp only [storeDefine, St.cdr_ok h0.valid, ok_bind, St.car_ok h1.valid, ht, St.rd_ok htv, hx, Bool.false_eq_true,
    ↓reduceIte, e3 fuel hf, setCdrX, St.rd_ok g1, g2, St.setCdr, e1.r1]
  simp only [ok_bind, St.put_ok _ g1, ne_eq, not_true, if_false]

theorem store_ok {x : Int} {v : Value} {l : Nat} (hr : Ready s 1 d) (hw : World s W mes σ) (hs : IsScope s W N s.r0 fun _ => none)
    (hi : IsName s W x) (hN : N x) (h0 : FixedPair s W.chg s.r2) (h1 : FixedPair s W.chg (s.cell s.r2).cdr)
    (hx : (s.cell (s.cell s.r2).cdr).car = x) (hl : σ.globals x = some l) (hv : IsVal s W mes s.r1 v) :
    ∃ F s', (∀ fuel, F ≤ fuel → storeDefine s fuel true false = ok s') ∧ Adv W s W s' 1 ∧
      World s' W mes { σ with vals := σ.vals.set l v } ∧ s'.r1 = c_unspecified :=
  store_at hr hw hs hi hN h0 h1 hx hi.text.valid (by rw [hi.tag]; rfl) hl hv

theorem alike_r2 (s : St) (r : Int) : Alike s { s with r2 := r } := ⟨rfl, rfl, ⟨rfl, rfl, rfl, rfl, rfl⟩, rfl, fun _ _ => rfl⟩

/-- The entry that hides the variable while its value is computed. -/
theorem hide_ok (hr : Ready s (k + 2) d) (hw : World s W mes σ) (x r : Int) :
    ∃ s1 s2, cons s x x = ok (s.free, s1) ∧ cons s1 s.free r = ok (s.free + 1, s2) ∧ s1.r0 = s.r0 ∧ Adv W s W s2 2 ∧ Ready s2 k d ∧
      World s2 W mes σ ∧ s2.r0 = s.r0 ∧ s2.r1 = s.r1 ∧ s2.r2 = s.r2 ∧ s2.cell s.free = { tag := .pair, car := x, cdr := x } ∧
      s2.cell (s.free + 1) = { tag := .pair, car := s.free, cdr := r } ∧ s2.free = s.free + 2 := by
  have e := push_ext s { tag := .pair, car := x, cdr := x }
  have f : (s.push { tag := .pair, car := x, cdr := x }).free = s.free + 1 := by simp
  have c : (s.push { tag := .pair, car := x, cdr := x }).cell s.free = { tag := .pair, car := x, cdr := x } := by simp
  have h := cons_ok (hr.room.mono (by omega)) x x
  generalize s.push { tag := .pair, car := x, cdr := x } = s1 at *
  have a1 := e.adv (j := 1) (by omega) W
  have hr1 := hr.adv (k' := k + 1) a1 (by omega)
  have e' := push_ext s1 { tag := .pair, car := s.free, cdr := r }
  have f' : (s1.push { tag := .pair, car := s.free, cdr := r }).free = s1.free + 1 := by simp
  have c' : (s1.push { tag := .pair, car := s.free, cdr := r }).cell s1.free = { tag := .pair, car := s.free, cdr := r } := by simp
  have h' := cons_ok (hr1.room.mono (by omega)) s.free r
  generalize s1.push { tag := .pair, car := s.free, cdr := r } = s2 at *
  have a2 := e'.adv (j := 1) (by omega) W
  refine ⟨s1, s2, h, by rw [h', f], e.r0, a1.trans a2, hr1.adv a2 (by omega), e'.world (e.world hw), e'.r0.trans e.r0, e'.r1.trans e.r1,
    e'.r2.trans e.r2, ?_, by rw [← f]; exact c', by omega⟩
  rw [e'.grow.same _ (by omega), c]

/-- The steps of `define` before the expression is evaluated. -/
theorem define_start {mv : Prop} {x : Int} {e : Expr} (hr : Ready s (7 + k) (d + 1)) (hw : World s W mes σ) (hc : IsForm s W mes N s.r1 (.define x e))
    (hs : IsScope s W N s.r0 fun _ => none) (hg : (s.cell (s.cell s.r0).car).car ≠ c_closure) :
    ∃ W2 s5 c r2 r, Adv W s W2 s5 7 ∧ s5.r0 = s.r0 ∧ s5.r2 = s.r1 ∧ r2 = s5.r2 ∧ (σ.declare x).2.globals x = some (σ.declare x).1 ∧
      Ready (s5.pushed c r2 r c_vm_eval_define) k d ∧ World (s5.pushed c r2 r c_vm_eval_define) W2 mes (σ.declare x).2 ∧
      ((∃ fs r b, e = .lam fs r b) ∧ IsCode (s5.pushed c r2 r c_vm_eval_define) W2 mes N c e ∧
          FixedPair (s5.pushed c r2 r c_vm_eval_define) W2.chg r ∧ IsEnv (s5.pushed c r2 r c_vm_eval_define) W2 N (s5.cell r).cdr (fun _ => none) ∨
        IsCode (s5.pushed c r2 r c_vm_eval_define) W2 mes (N.without x) c e ∧
          IsScope (s5.pushed c r2 r c_vm_eval_define) W2 (N.without x) r fun _ => none) ∧
      ∀ y gp mp, Walk mv K ⟨.eval, s, y, gp, mp⟩ ⟨.eval, s5.pushed c r2 r c_vm_eval_define, y, some true, some false⟩ := by
  have hmoves := fun y gp mp => moves_define (K := K) y gp mp (hr.mono (by omega) (Nat.le_refl _)) hw hc hs hg
  cases hc with
  | define hp hh h1 hx hi hn h2 he =>
    obtain ⟨F, entry, s0, s2, W2, e0, e1, e2, e3, e4, e5, e6, -⟩ := declare_ok hw hi hn hs (hr.mono (by omega) (Nat.le_refl _))
    have hr2 := hr.adv (k' := 2 + k) e2 (by omega)
    have hal := alike_r2 s2 s2.r1
    have hw2 := hal.world e3
    have a2 := e2.trans (hal.adv W2)
    have hr2' := hr.adv (k' := 2 + k) a2 (by omega)
    have g0 : ({ s2 with r2 := s2.r1 } : St).r2 = s.r1 := e5
    have g1 : ({ s2 with r2 := s2.r1 } : St).r0 = s.r0 := e4
    generalize hs3 : { s2 with r2 := s2.r1 } = s3 at *
    obtain ⟨s4, s5, i1, i2, i0, i3, i4, i5, i6, i7, i8, i9, i10, i11⟩ := hide_ok (k := k) (hr2'.mono (by omega) (Nat.le_refl _)) hw2 x s.r0
    have a5 := a2.trans i3
    have hgp := grow_pushed s5 (s.cell (s.cell (s.cell s.r1).cdr).cdr).car s5.r2 (s3.free + 1) c_vm_eval_define
    have lp := a5.later.trans (hgp.later W2)
    have hwp := i5.grow hgp rfl
    have hfp : FixedPair (s5.pushed (s.cell (s.cell (s.cell s.r1).cdr).cdr).car s5.r2 (s3.free + 1) c_vm_eval_define) W2.chg (s3.free + 1) :=
      fresh_pair (s := s3) (s' := s5.pushed _ _ _ _) hw2 (by omega) (by show s3.free + 1 < s5.free; omega) (by show (s5.cell _).tag = _; rw [i10])
    have hrp := i4.pushed (s.cell (s.cell (s.cell s.r1).cdr).cdr).car s5.r2 (s3.free + 1) c_vm_eval_define
    refine ⟨W2, s5, (s.cell (s.cell (s.cell s.r1).cdr).cdr).car, s5.r2, s3.free + 1, a5, by rw [i6, g1], by rw [i8, g0], rfl, e6, hrp, hwp, ?_,
      fun y gp mp => .fuel (fun _ => hmoves y gp mp) F fun fuel hf => ?_⟩
    · rcases he with ⟨⟨fs, r, b, rfl⟩, hc⟩ | hc
      · left
        refine ⟨⟨_, _, _, rfl⟩, hc.later lp, hfp, ?_⟩
        rw [i10]
        exact hs.whole.later lp
      · right
        refine ⟨hc.later lp, hfp, ?_, ?_, ?_, ?_, ?_, ?_, fun _ _ => rfl⟩
        · show s5.Valid (s5.cell (s3.free + 1)).car
          rw [i10]
          have := hw2.base; simp only [c_symbol_max] at this
          exact ⟨by show 1 ≤ s3.free; omega, by show s3.free < s5.free; omega⟩
        · show (s5.cell (s5.cell (s3.free + 1)).car).tag = _
          rw [i10]; show (s5.cell s3.free).tag = _; rw [i9]
        · show ¬ W2.src (s5.cell (s3.free + 1)).car
          rw [i10]
          intro hc
          have : s3.free < s3.free := hw2.below _ (hw2.source _ hc)
          omega
        · show ¬ (N (s5.cell (s5.cell (s3.free + 1)).car).car ∧ (s5.cell (s5.cell (s3.free + 1)).car).car ≠ x)
          rw [i10]; show ¬ (N (s5.cell s3.free).car ∧ (s5.cell s3.free).car ≠ x); rw [i9]
          exact fun h => h.2 rfl
        · exact fun h => hs.mark h.1
        · show IsEnv _ _ _ (s5.cell (s3.free + 1)).cdr _
          rw [i10]
          intro y hy
          exact (hs.whole.later lp) y hy.1
    · have lz := e2.later
      have hd : evalDefineForm s fuel false = ok (true, s5.pushed (s.cell (s.cell (s.cell s.r1).cdr).cdr).car s5.r2 (s3.free + 1) c_vm_eval_define) := by
        have lz3 : Later W s W2 s3 := a2.later
        simp only [evalDefineForm, St.car_ok hs.pair.valid, St.car_ok hs.valid, St.cdr_ok hp.valid, St.car_ok h1.valid, ok_bind, hx,
          St.rd_ok hi.text.valid, hi.tag, reduceCtorEq, ↓reduceIte, ne_eq, hg, not_false_eq_true, decide_true, Bool.false_eq_true]
        rw [e0 fuel hf]
        rcases e1 with ⟨rfl, e1⟩ | ⟨e1, rfl⟩
        · simp only [ok_bind, ↓reduceIte, e1]
          simp only [hs3, St.cdr_ok (h1.later lz3).valid, h1.cell_eq lz3, ok_bind, St.car_ok (h2.later lz3).valid, h2.cell_eq lz3, i1, i0, g1, i2]
          rw [i4.pushCc]
          rfl
        simp only [ok_bind, if_neg e1]
        simp only [hs3, St.cdr_ok (h1.later lz3).valid, h1.cell_eq lz3, ok_bind, St.car_ok (h2.later lz3).valid, h2.cell_eq lz3, i1, i0, g1, i2]
        rw [i4.pushCc]
        rfl
      have d1 : ¬ (c_symbol_define = c_symbol_define_macro) := by decide
      simp only [step, St.rd_ok hp.valid, ok_bind, hp.tag, hh]
      simp only [show decide (c_symbol_define = c_symbol_define_macro) = false by decide, hd, ok_bind]
      rfl

theorem topOk_define {δ : Int → Int → List Value → Value → Prop} (hK : Implements K.builtin mes δ)
    (hm : mv → ∀ n id vs v, δ n id vs v → MovesBuiltin K.builtin mes n id vs) {x : Int} {e : Expr} {v : Value}
    (h : Eval mes δ d (fun _ => none) (σ.declare x).2 e v σ') :
    ∃ k, TopOk mv K mes k (d + 1) σ (.define x e) (.obj c_unspecified) { σ' with vals := σ'.vals.set (σ.declare x).1 v } := by
  obtain ⟨⟨k1, hk1⟩, hglob, -⟩ := sim hK hm h
  refine ⟨7 + (k1 + 4 + 1), ?_⟩
  intro W s N hr hw hc hs hg y gp mp
  obtain ⟨W2, s5, c, r2, r, a5, e4, e5, er2, e6, hrp, hwp, he, hsteps⟩ := define_start (mv := mv) (K := K) hr hw hc hs hg
  have hgp := grow_pushed s5 c r2 r c_vm_eval_define
  have hsub : Sub mv K mes .eval (k1 + 4) σ' (Gives mes v) W2 (s5.pushed c r2 r c_vm_eval_define) := by
    rcases he with ⟨⟨fs, r, b, rfl⟩, hc, hfp, henv⟩ | ⟨hc, hsc⟩
    · cases h with
      | lam => exact (lam_ok (N := N) (hrp.mono (by omega) (Nat.le_refl _)) hwp hc hfp (henv.except _) hs.mark fun _ _ => rfl).mono (by omega) fun _ _ _ h => h
    · exact (hk1 W2 _ _ (hrp.mono (by omega) (Nat.le_refl _)) hwp hc hsc).mono (by omega) fun _ _ _ h => h
  cases hc with
  | define hp hh h1 hx hi hn h2 _ =>
    obtain ⟨W6, s6, y6, j1, j2, j3, j4, j5, j6⟩ := hsub y (some true) (some false)
    have hb := j2.back
    have a6 : Adv W2 s5 W6 s6 (k1 + 4) := ⟨hb.keeps, (hgp.later W2).trans j3, j5⟩
    have a06 := a5.trans a6
    have hr6 := hr.adv (k' := 1) a06 (by omega)
    have r20 : s6.r2 = s.r1 := by rw [hb.r2, er2, e5]
    have r00 : s6.r0 = s.r0 := by rw [hb.r0, e4]
    have hp6 := hp.later a06.later
    have cp := hp.cell_eq a06.later
    have h16 := h1.later a06.later
    have c1 := h1.cell_eq a06.later
    obtain ⟨F', s7, m1, m2, m3, m4⟩ := store_ok (l := (σ.declare x).1) hr6 j4 (hs.at a06.later r00) (hi.later a06.later) hn
      (by rw [r20]; exact hp6) (by rw [r20, cp]; exact h16) (by rw [r20, cp, c1]; exact hx) (by rw [hglob]; exact e6) j6
    have hr7 := hr6.adv (k' := 0) m2 (by omega)
    have hv7 : IsVal s7 W6 mes s7.r1 (.obj c_unspecified) := by rw [m4]; exact isVal_unspecified m3
    obtain ⟨W8, s8, y8, n1, n2, n3, n4, n5, n6⟩ := Sub.retVal (K := K) hr7 m3 hv7 y6 (some true) (some false)
    have a07 := a06.trans m2
    refine ⟨W8, s8, y8, some true, some false, ?_, a07.keeps.popped n2, a07.later.trans n3, n4, by have := a07.free; omega, n6⟩
    refine .trans (hsteps y gp mp) (j1.trans (.trans (.dispatch (l := .evalDefine) (by rw [hb.r3]; decide)) (.trans ?_ n1)))
    refine .fuel (fun _ => moves_evalDefine (x := y6) hr6 j4 (hs.at a06.later r00) (hi.later a06.later) hn (by rw [r20]; exact hp6)
      (by rw [r20, cp]; exact h16) (by rw [r20, cp, c1]; exact hx)) F' fun fuel hf => ?_
    simp only [step, m1 fuel hf, ok_bind]

/-- The machine evaluates top level forms. -/
theorem top {δ : Int → Int → List Value → Value → Prop} (hK : Implements K.builtin mes δ)
    (hm : mv → ∀ n id vs v, δ n id vs v → MovesBuiltin K.builtin mes n id vs) {f : Toplevel} {v : Value}
    (h : EvalForm mes δ d σ f v σ') : ∃ k, TopOk mv K mes k d σ f v σ' := by
  cases h with
  | expr h =>
    obtain ⟨⟨k, hk⟩, -⟩ := sim hK hm h
    exact ⟨k, topOk_expr hk⟩
  | define h => exact topOk_define hK hm h

end Mes
