import Verif.Proof.EvalFail
/-
The C functions of the builtins in corresponding memories.
-/
namespace Mes.Gc
open Res Spec
variable {M : Mode} {P P' : Int → Prop} {f f' : Int → Int} {s s' t t' : St} {K : Calls} {W : Ghost} {mes : Bool} {σ : Store}

theorem _root_.Mes.Spec.IsVals.proper {a : Int} {vs : List Value} (h : IsVals s W mes a vs) : Proper s a := by
  induction h with
  | nil => exact .nil
  | cons hp _ _ ih => exact .cons hp.tag ih

theorem _root_.Mes.Spec.IsVals.pair {a : Int} {v : Value} {vs : List Value} (h : IsVals s W mes a (v :: vs)) : (s.cell a).tag = .pair := by
  cases h with
  | cons hp => exact hp.tag

theorem _root_.Mes.Spec.IsVals.chain' {a : Int} {vs : List Value} (h : IsVals s W mes a vs) : ∃ as, Chain s a as c_nil ∧ as.length = vs.length := by
  induction h with
  | nil => exact ⟨[], .nil _, rfl⟩
  | cons hp _ _ ih =>
    obtain ⟨as, h1, h2⟩ := ih
    exact ⟨_ :: as, .cons hp.ne hp.valid hp.tag h1, by simp [h2]⟩

theorem isLoop_sim (h : Rel M P f s s') (n : Int) : ∀ (fuel : Nat) (x : Int) (ns : List Int), P x → Numbers s x ns →
    SimV Same (isLoop s n fuel x) (isLoop s' n fuel (f x))
  | 0, _, _, _, _ => trivial
  | fuel + 1, x, ns, hx, hp => by
    rw [isLoop, isLoop]
    by_cases hn : x = c_nil
    · rw [if_pos hn, if_pos ((h.nil_iff hx).2 hn)]; exact ⟨_, rfl, rfl, .inl rfl⟩
    · rw [if_neg hn, if_neg (fun e => hn ((h.nil_iff hx).1 e))]
      cases hp with
      | nil => exact absurd rfl hn
      | cons _ hv ht hnum hp =>
        refine (carP_sim h hx).bind fun i i' ei hi => ?_
        obtain ⟨hi, rfl⟩ := hi
        rw [carP_pair hv ht] at ei
        cases ei
        refine (cdr_value h hi (.inl hnum.tag)).bind fun v v' _ e => ?_
        subst e
        split
        · exact ⟨_, rfl, rfl, .inr rfl⟩
        · refine (cdrP_sim h hx).bind fun d d' ed hd => ?_
          obtain ⟨hd, rfl⟩ := hd
          rw [cdrP_pair hv ht] at ed
          cases ed
          exact isLoop_sim h n fuel _ _ hd hp

theorem isP_sim (h : Rel M P f s s') (fuel : Nat) {x : Int} {ns : List Int} (hx : P x) (hp : Numbers s x ns) :
    SimV Same (isP s fuel x) (isP s' fuel (f x)) := by
  rw [isP, isP]
  by_cases hn : x = c_nil
  · rw [if_pos hn, if_pos ((h.nil_iff hx).2 hn)]; exact ⟨_, rfl, rfl, .inl rfl⟩
  · rw [if_neg hn, if_neg (fun e => hn ((h.nil_iff hx).1 e))]
    cases hp with
    | nil => exact absurd rfl hn
    | cons _ hv ht hnum hp =>
      refine (car_sim h hx ht).bind fun a a' ea ha => ?_
      obtain ⟨ha, rfl⟩ := ha
      refine (numberArg_sim h ha).bind fun n n' _ e => ?_
      subst e
      refine (cdrP_sim h hx).bind fun d d' ed hd => ?_
      obtain ⟨hd, rfl⟩ := hd
      rw [cdrP_pair hv ht] at ed
      cases ed
      exact isLoop_sim h n fuel _ _ hd hp

theorem cons_full {a d : Int} (h0 : c_symbol_max ≤ s.free) (h : ¬ Room s 1) : cons s a d = abort := by
  unfold cons makeCell
  dsimp only
  rw [if_pos (.inr (Int.not_le.1 fun hle => h ⟨h0, hle⟩))]

/-- Without the cells for the copy the memory is exhausted. -/
theorem revOnto_full {as : List Int} : ∀ {s : St} {x r : Int} {fuel : Nat}, Chain s x as c_nil → c_symbol_max ≤ s.free → as ≠ [] →
    ¬ Room s as.length → revOnto fuel s x r = abort ∨ revOnto fuel s x r = loop := by
  induction as with
  | nil => intro s x r fuel _ h0 h; exact absurd rfl h
  | cons a as ih =>
    intro s x r fuel hc h0 _ h
    cases hc with
    | cons hne hv ht hc =>
      cases fuel with
      | zero => exact .inr rfl
      | succ fuel =>
        simp only [revOnto, if_neg hne, St.rd_ok hv, ok_bind]
        by_cases hr : Room s 1
        · rw [cons_ok hr]
          have hext := push_ext s { tag := .pair, car := (s.cell a).car, cdr := r }
          have hfr : (s.push { tag := .pair, car := (s.cell a).car, cdr := r }).free = s.free + 1 := by simp
          have hc' := hc.ext hext
          have e := hext.same a hv.2 id
          have ha : (s.push { tag := .pair, car := (s.cell a).car, cdr := r }).arena = s.arena := rfl
          generalize s.push { tag := .pair, car := (s.cell a).car, cdr := r } = s1 at *
          have hv1 : s1.Valid a := ⟨hv.1, by have := hv.2; omega⟩
          simp only [ok_bind, St.cdr_ok hv1, e]
          refine ih hc' (by omega) (fun e => h ?_) fun hr2 => h ⟨h0, ?_⟩
          · rw [e]; exact hr
          · have := hr2.room
            simp only [List.length_cons, Int.natCast_add, Int.cast_ofNat_Int]
            omega
        · left
          rw [cons_full h0 hr]
          rfl

theorem append2_sim' {as : List Int} {x x' y y' : Int} (h : Rel M P f s s') (hc : Chain s x as c_nil) (h0 : c_symbol_max ≤ s.free)
    (hx : At P f x x') (hy : At P f y y') {fuel : Nat} (hf : as.length < fuel) : Sim M P f (append2 s fuel x y) (append2 s' fuel x' y') := by
  by_cases hr : Room s as.length
  · exact append2_sim h hc hr hx hy hf
  · cases hc with
    | nil =>
      simp only [append2, h.atConst hx (c := c_nil) (by decide) (by decide), if_true]
      exact Sim.okAt h hy
    | cons hne hv ht hc =>
      have := revOnto_full (r := c_nil) (fuel := fuel) (.cons hne hv ht hc) h0 (by simp) hr
      simp only [append2, if_neg hne, St.rd_ok hv, ok_bind, ht, ne_eq, not_true_eq_false, if_false]
      rcases this with e | e <;> rw [e] <;> trivial

theorem same_at (h : Rel M P f s s') {m m' : Res Int} (hm : SimV (At P f) m m') : Sim M P f (same s m) (same s' m') := pure_at h hm
theorem same_same (h : Rel M P f s s') {m m' : Res Int} (hm : SimV Same m m') : Sim M P f (same s m) (same s' m') := pure_same h hm

theorem charToInteger_sim (h : Rel M P f s s') {x : Int} (hx : P x) (ht : (s.cell x).tag = .char) :
    Sim M P f (charToInteger s x) (charToInteger s' (f x)) :=
  (cdr_value h hx (.inr ht)).simS fun n n' _ e => by subst e; exact makeNumber_sim h _

theorem integerToChar_sim (h : Rel M P f s s') {x : Int} (hx : P x) (ht : (s.cell x).tag = .number) :
    Sim M P f (integerToChar s x) (integerToChar s' (f x)) :=
  (cdr_value h hx (.inl ht)).simS fun n n' _ e => by subst e; exact makeChar_sim h _

theorem bool_same (b : Bool) : Same (Mes.bool b) (Mes.bool b) := ⟨rfl, by cases b <;> simp [Mes.bool]⟩

theorem movesOne {n id : Int} {vs : List Value} {g : St → Nat → Int → Res (Int × St)} (F : Nat)
    (he : ∀ fuel s x, builtins.builtin fuel id [x] s = g s fuel x)
    (h1 : ∀ {s W us}, Passed s W mes n us vs → ∃ a, us = [a])
    (hg : ∀ {M P f s s' W σ a fuel}, F ≤ fuel → World s W mes σ → Passed s W mes n [a] vs → Rel M P f s s' → P a → Sim M P f (g s fuel a) (g s' fuel (f a))) :
    MovesBuiltin builtins.builtin mes n id vs := by
  refine ⟨F, fun fuel hf s W σ us hw hp M P f s' h hu => ?_⟩
  obtain ⟨a, rfl⟩ := h1 hp
  rw [List.map_cons, List.map_nil, he, he]
  exact hg hf hw hp h (hu a (by simp))

/-- The arguments of the table are given to the C functions in corresponding memories. -/
theorem moves_builtins : ∀ n id vs v, Computes n id vs v → MovesBuiltin builtins.builtin mes n id vs := by
  intro n id vs v h
  cases h with
  | car =>
    exact movesOne 0 (g := fun s _ x => same s (carP s x)) (fun _ _ _ => by simp [builtins, function1]) (fun hp => ⟨_, hp.one.choose_spec.1⟩)
      fun _ _ _ h ha => same_at h (carP_sim h ha)
  | cdr =>
    exact movesOne 0 (g := fun s _ x => same s (cdrP s x)) (fun _ _ _ => by simp [builtins, function1]) (fun hp => ⟨_, hp.one.choose_spec.1⟩)
      fun _ _ _ h ha => same_at h (cdrP_sim h ha)
  | list =>
    exact movesOne 0 (g := fun s _ x => same s (ok x)) (fun _ _ _ => by simp [builtins, function1]) (fun hp => ⟨_, hp.any.choose_spec.1⟩)
      fun _ _ _ h ha => same_at h ⟨_, rfl, ha, rfl⟩
  | null =>
    exact movesOne 0 (g := fun s _ x => same s (ok (nullP x))) (fun _ _ _ => by simp [builtins, function1]) (fun hp => ⟨_, hp.one.choose_spec.1⟩)
      fun _ _ _ h ha => same_same h ⟨_, rfl, by
        unfold nullP
        simp only [h.nil_iff ha]
        exact bool_same _⟩
  | length =>
    exact movesOne 0 (g := fun s fuel x => lengthP s fuel x) (fun _ _ _ => by simp [builtins, function1]) (fun hp => ⟨_, hp.one.choose_spec.1⟩)
      fun _ _ _ h ha => lengthP_sim h _ ha
  | isPair =>
    exact movesOne 0 (g := fun s _ x => same s (pairP s x)) (fun _ _ _ => by simp [builtins, function1]) (fun hp => ⟨_, hp.one.choose_spec.1⟩)
      fun _ _ _ h ha => same_same h (by
        simp only [pairP, St.rd_ok (h.valid ha), St.rd_ok (h.valid' ha), ok_bind, (h.iso.cell _ ha).tag]
        exact ⟨_, rfl, bool_same _⟩)
  | code =>
    exact movesOne 0 (g := fun s _ x => charToInteger s x) (fun _ _ _ => by simp [builtins, function1]) (fun hp => ⟨_, hp.one.choose_spec.1⟩)
      fun _ _ hp h ha => charToInteger_sim h ha (by obtain ⟨a, e, hv⟩ := hp.one; cases e; exact hv.isChar.tag)
  | char =>
    exact movesOne 0 (g := fun s _ x => integerToChar s x) (fun _ _ _ => by simp [builtins, function1]) (fun hp => ⟨_, hp.one.choose_spec.1⟩)
      fun _ _ hp h ha => integerToChar_sim h ha (by obtain ⟨a, e, hv⟩ := hp.one; cases e; exact hv.isInt.tag)
  | greater =>
    exact movesOne 0 (g := fun s fuel x => same s (greaterP s fuel x)) (fun _ _ _ => by simp [builtins, function1]) (fun hp => ⟨_, hp.any.choose_spec.1⟩)
      fun _ _ hp h ha => same_same h (greaterP_sim h _ ha (by obtain ⟨a, e, hv⟩ := hp.any; cases e; exact hv.proper))
  | less =>
    exact movesOne 0 (g := fun s fuel x => same s (lessP s fuel x)) (fun _ _ _ => by simp [builtins, function1]) (fun hp => ⟨_, hp.any.choose_spec.1⟩)
      fun _ _ hp h ha => same_same h (lessP_sim h _ ha (by obtain ⟨a, e, hv⟩ := hp.any; cases e; exact hv.proper))
  | equal =>
    exact movesOne 0 (g := fun s fuel x => same s (isP s fuel x)) (fun _ _ _ => by simp [builtins, function1]) (fun hp => ⟨_, hp.any.choose_spec.1⟩)
      fun _ _ hp h ha => same_same h (isP_sim h _ ha (by obtain ⟨a, e, hv⟩ := hp.any; cases e; exact hv.numbers))
  | negate =>
    exact movesOne 0 (g := fun s fuel x => minus s fuel x) (fun _ _ _ => by simp [builtins, function1]) (fun hp => ⟨_, hp.any.choose_spec.1⟩)
      fun _ _ hp h ha => minus_sim h _ ha (by obtain ⟨a, e, hv⟩ := hp.any; cases e; exact hv.pair)
  | minus =>
    exact movesOne 0 (g := fun s fuel x => minus s fuel x) (fun _ _ _ => by simp [builtins, function1]) (fun hp => ⟨_, hp.any.choose_spec.1⟩)
      fun _ _ hp h ha => minus_sim h _ ha (by obtain ⟨a, e, hv⟩ := hp.any; cases e; exact hv.pair)
  | plus =>
    exact movesOne 0 (g := fun s fuel x => plus s fuel x) (fun _ _ _ => by simp [builtins, function1]) (fun hp => ⟨_, hp.any.choose_spec.1⟩)
      fun _ _ _ h ha => plus_sim h _ ha
  | multiply =>
    exact movesOne 0 (g := fun s fuel x => multiply s fuel x) (fun _ _ _ => by simp [builtins, function1]) (fun hp => ⟨_, hp.any.choose_spec.1⟩)
      fun _ _ _ h ha => multiply_sim h _ ha
  | eq =>
    refine ⟨0, fun fuel _ s W σ us hw hp M P f s' h hu => ?_⟩
    obtain ⟨a, b, rfl, ha, hb⟩ := hp.two
    simpa [builtins, function2] using same_same h (eqP_sim h (hu a (by simp)) (hu b (by simp)))
  | cons =>
    refine ⟨0, fun fuel _ s W σ us hw hp M P f s' h hu => ?_⟩
    obtain ⟨a, b, rfl, ha, hb⟩ := hp.two
    simpa [builtins, function2] using cons_sim h (hu a (by simp)) (hu b (by simp))
  | @append vs ws =>
    refine ⟨vs.length + 1, fun fuel hf s W σ us hw hp M P f s' h hu => ?_⟩
    obtain ⟨a, b, rfl, ha, hb⟩ := hp.two
    obtain ⟨as, hc, hl⟩ := ha.isVals.chain'
    simpa [builtins, function2] using append2_sim' h hc hw.base ⟨hu a (by simp), rfl⟩ ⟨hu b (by simp), rfl⟩ (fuel := fuel) (by omega)
  | acons =>
    refine ⟨0, fun fuel _ s W σ us hw hp M P f s' h hu => ?_⟩
    obtain ⟨a, b, c, rfl, ha, hb, hc⟩ := hp.three
    simp only [builtins, function3, if_true, List.map_cons, List.map_nil, acons]
    refine (cons_sim h (hu a (by simp)) (hu b (by simp))).bindAt fun P1 f1 r r' t t' h1 hr m1 _ => ?_
    have := m1 c (hu c (by simp))
    obtain ⟨hr, rfl⟩ := hr
    rw [← this.2]
    exact cons_sim h1 hr this.1

/-- The same for the arguments that the C functions reject. -/
theorem moves_rejects : ∀ n id vs key, Rejects n id vs key → MovesBuiltin builtins.builtin mes n id vs := by
  intro n id vs key h
  cases h with
  | car =>
    exact movesOne 0 (g := fun s _ x => same s (carP s x)) (fun _ _ _ => by simp [builtins, function1]) (fun hp => ⟨_, hp.one.choose_spec.1⟩)
      fun _ _ _ h ha => same_at h (carP_sim h ha)
  | cdr =>
    exact movesOne 0 (g := fun s _ x => same s (cdrP s x)) (fun _ _ _ => by simp [builtins, function1]) (fun hp => ⟨_, hp.one.choose_spec.1⟩)
      fun _ _ _ h ha => same_at h (cdrP_sim h ha)
  | greater =>
    exact movesOne 0 (g := fun s fuel x => same s (greaterP s fuel x)) (fun _ _ _ => by simp [builtins, function1]) (fun hp => ⟨_, hp.any.choose_spec.1⟩)
      fun _ _ hp h ha => same_same h (greaterP_sim h _ ha (by obtain ⟨a, e, hv⟩ := hp.any; cases e; exact hv.proper))
  | less =>
    exact movesOne 0 (g := fun s fuel x => same s (lessP s fuel x)) (fun _ _ _ => by simp [builtins, function1]) (fun hp => ⟨_, hp.any.choose_spec.1⟩)
      fun _ _ hp h ha => same_same h (lessP_sim h _ ha (by obtain ⟨a, e, hv⟩ := hp.any; cases e; exact hv.proper))
  | @equal v ws hv =>
    refine movesOne 0 (g := fun s fuel x => same s (isP s fuel x)) (fun _ _ _ => by simp [builtins, function1]) (fun hp => ⟨_, hp.any.choose_spec.1⟩)
      fun _ _ hp h ha => same_same h ?_
    obtain ⟨a, e, hl⟩ := hp.any
    cases e
    cases hl with
    | cons hp hx _ =>
      rw [isP, isP, if_neg hp.ne, if_neg (fun e => hp.ne ((h.nil_iff ha).1 e))]
      refine (car_sim h ha hp.tag).bind fun b b' eb hb => ?_
      obtain ⟨hb, rfl⟩ := hb
      rw [St.car_ok hp.valid] at eb
      cases eb
      refine (numberArg_sim h hb).bind fun n n' e _ => ?_
      rw [hx.numberArg hv] at e
      cases e
  | minus =>
    exact movesOne 0 (g := fun s fuel x => minus s fuel x) (fun _ _ _ => by simp [builtins, function1]) (fun hp => ⟨_, hp.any.choose_spec.1⟩)
      fun _ _ hp h ha => minus_sim h _ ha (by obtain ⟨a, e, hv⟩ := hp.any; cases e; exact hv.pair)
  | plus =>
    exact movesOne 0 (g := fun s fuel x => plus s fuel x) (fun _ _ _ => by simp [builtins, function1]) (fun hp => ⟨_, hp.any.choose_spec.1⟩)
      fun _ _ _ h ha => plus_sim h _ ha
  | multiply =>
    exact movesOne 0 (g := fun s fuel x => multiply s fuel x) (fun _ _ _ => by simp [builtins, function1]) (fun hp => ⟨_, hp.any.choose_spec.1⟩)
      fun _ _ _ h ha => multiply_sim h _ ha

end Mes.Gc
