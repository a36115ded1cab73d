import Verif.Proof.ReadStops
/-
The reader comes to an end on every plain text of a file: names, data and lists.
-/
namespace Mes
open Res Spec

variable {E : Env} {s s' s'' : St} {w w' : In} {H H' : List (List Byte × Int)} {t t' bs : List Byte} {n M : Nat} {dots clear : Bool} {k fuel : Nat}

theorem hashSum_ascii {name : List Byte} (h : ∀ b ∈ name, b.toNat < 128) : 0 ≤ hashSum name := by
  have key : ∀ b ∈ name, 0 ≤ sc b := fun b hb => by rw [sc_of_ascii (h b hb)]; exact code_nonneg b
  match name, key with
  | [], _ => exact Int.le_refl 0
  | [a], key => have := key a (by simp); simp only [hashSum]; omega
  | a :: b :: l, key =>
    have h1 := key a (by simp)
    have h2 := key b (by simp)
    simp only [hashSum]
    split <;> omega

/-- A part of the text `t` was read, and `t'` is left. -/
structure Out (E : Env) (s : St) (H : List (List Byte × Int)) (t : List Byte) (r : Int × St × In) (H' : List (List Byte × Int)) (t' : List Byte) : Prop where
  rd : Reading E r.2.1 r.2.2 H' t' false
  frame : Frame E.touch s r.2.1
  suffix : t' <:+ t
  length : H'.length + t'.length ≤ H.length + t.length

theorem _root_.Mes.Spec.Reading.file (h : Reading E s w H t clear) (hp : E.p = 0) : FileInput w t clear := by
  cases h.input with
  | file _ h => exact h
  | string h' => have := (portLoop_ok h'.port).2.1.1; omega

theorem _root_.Mes.Spec.Reading.with (h : Reading E s w H t clear) (hp : E.p = 0) (hw : FileInput w' t' false) : Reading E s w' H t' false :=
  ⟨h.sym, h.buckets, .file hp hw, h.names, h.mx⟩

theorem Out.of_new {r : Int × St × In} (h : Reading E s w H bs false) (hp : E.p = 0) (hn : New s t r) : ∃ t', Out E s H t r H t' ∧ r.1 ≠ c_dot := by
  obtain ⟨h1, h2, t', h3, h4⟩ := hn
  refine ⟨t', ⟨(h.ext h2).with hp h4, h2.frame, h3, by have := h3.length_le; omega⟩, ?_⟩
  simp only [c_symbol_max, c_dot] at *
  omega

theorem Out.trans {r r' : Int × St × In} {H'' : List (List Byte × Int)} {t'' : List Byte} (h : Out E s H t r H' t') (h' : Out E r.2.1 H' t' r' H'' t'') :
    Out E s H t r' H'' t'' :=
  ⟨h'.rd, h.frame.trans h'.frame, h'.suffix.trans h.suffix, by have := h.length; have := h'.length; omega⟩

/-- Only the dot is called `.`. -/
theorem _root_.Mes.Spec.Reading.not_dot {x : Int} {name : List Byte} (h : Reading E s w H t clear) (hx : HasText s x name) (hn : name ≠ [46]) : x ≠ c_dot := by
  intro e
  subst e
  exact hn (hx.inj h.names.dot)

theorem identifier_not_end {c : Int} (h : identifierP c = true) : endOfWordP c = false := by
  simp only [identifierP, Bool.and_eq_true, decide_eq_true_eq] at h
  simp only [endOfWordP, C.isspace, Bool.or_eq_false_iff, decide_eq_false_iff_not]
  unfold eof at *
  omega

theorem name_ne_dot {pre u : List Byte} (h : identifierP (next ((pre ++ u).drop 1)) = true) (he : endOfWordP (next u) = true) :
    pre.takeWhile (· ≠ 0) ≠ [46] := by
  intro hn
  match pre, hn with
  | [], hn => simp at hn
  | [b], hn =>
    simp only [List.singleton_append, List.drop_succ_cons, List.drop_zero] at h
    rw [identifier_not_end h] at he
    cases he
  | b :: c :: l, hn =>
    simp only [List.cons_append, List.drop_succ_cons, List.drop_zero, next_cons] at h
    by_cases hb : b = 0
    · subst hb; simp at hn
    · by_cases hc : c = 0
      · subst hc; exact absurd h (by decide)
      · simp [List.takeWhile_cons, hb, hc] at hn

theorem stops_identifier (hp : E.p = 0) (h : Reading E s w H (t.drop 1) false) (ha : ∀ b ∈ t, b.toNat < 128) (hk : H.length + t.length < E.k)
    (hf : t.length < fuel) (hd : dots = false → next t = 46 → identifierP (next (t.drop 1)) = true) :
    Stops (readIdentifierOrNumber E.k fuel s w (next t)) (fun r => ∃ H' t', Out E s H t r H' t' ∧
      (t'.length < t.length ∨ endOfWordP (next t) = true) ∧ (dots = false → r.1 ≠ c_dot)) := by
  unfold readIdentifierOrNumber
  refine (stops_plus (h.file hp)).bind fun ⟨c, s1, w1⟩ ⟨t1, a1, a2, a3⟩ => ?_
  obtain ⟨e1, e2, h1⟩ := a3
  dsimp only at e1 e2 h1 ⊢
  subst e1 e2
  refine (stops_minus h1).bind fun ⟨neg, c, s1, w2⟩ ⟨t2, b1, b2, b3⟩ => ?_
  obtain ⟨e1, e2, h2⟩ := b3
  dsimp only at e1 e2 h2 ⊢
  subst e1 e2
  have hs2 : t2 <:+ t := b1.trans a1
  have hl2 := hs2.length_le
  have h12 : t2 = t ∨ t2.length < t.length ∧ C.isdigit (next t2) = true := by
    rcases b2 with rfl | b2
    · exact a2
    · exact .inr ⟨by have := a1.length_le; omega, b2.2⟩
  refine (stops_digits fuel w2 t2 0 [] h2 (by omega)).bind fun ⟨m, buf, c, s1, w3⟩ ⟨pre, t3, c1, c2, c3⟩ => ?_
  obtain ⟨e1, e2, h3⟩ := c3
  dsimp only at e1 e2 c2 h3 ⊢
  subst e1 e2
  obtain rfl : pre = buf := c2.symm
  have hs3 : t3 <:+ t2 := ⟨pre, c1.symm⟩
  have hl3 := hs3.length_le
  split
  · rename_i he
    refine (stops_unread h3 _ _).bind fun ⟨_, s1, w4⟩ ⟨e1, h4⟩ => ?_
    dsimp only at e1 h4 ⊢
    subst e1
    refine (stops_make _ _ _ (Frame.refl _ _) h.names.base (List.suffix_refl t3) h4).mono fun r hr => ?_
    obtain ⟨t', o, od⟩ := Out.of_new h hp hr
    have hle := o.suffix.length_le
    refine ⟨H, t', ⟨o.rd, o.frame, o.suffix.trans (hs3.trans hs2), by omega⟩, ?_, fun _ => od⟩
    rcases h12 with rfl | h12
    · cases pre with
      | nil => right; rw [c1]; exact he
      | cons b pre => left; rw [c1]; simp; omega
    · left; omega
  · rename_i he
    refine (stops_word fuel w3 t3 _ h3 (by omega)).bind fun ⟨buf, c, s1, w4⟩ ⟨pre2, t4, d1, d2, d3, d4⟩ => ?_
    obtain ⟨e1, e2, h4⟩ := d4
    dsimp only at e1 e2 d2 h4 ⊢
    subst e1 e2 d2
    refine (stops_unread h4 _ _).bind fun ⟨_, s1, w5⟩ ⟨e1, h5⟩ => ?_
    dsimp only at e1 h5 ⊢
    subst e1
    refine stops_ubUnless.bind fun _ _ => ?_
    have hs4 : t4 <:+ t3 := ⟨pre2, d1.symm⟩
    have hlt : t4.length < t3.length := suffix_lt hs4 (fun e => by rw [e] at d3; exact he d3)
    have hname : ∀ b ∈ (pre ++ pre2).takeWhile (· ≠ 0), b.toNat < 128 := fun b hb => by
      have hb := List.takeWhile_subset _ hb
      refine ha b (hs2.subset ?_)
      rw [c1, d1]
      simp at hb ⊢
      rcases hb with hb | hb
      · exact .inl hb
      · exact .inr (.inl hb)
    refine (stops_intern (h.with hp h5) (hashSum_ascii hname) (by omega)).bind fun ⟨x, s2⟩ ⟨H', g1, g2, g3, g4⟩ => ?_
    dsimp only at g1 g2 g3 g4 ⊢
    refine .ok ⟨H', t4, ⟨g1, g2, hs4.trans (hs3.trans hs2), by omega⟩, .inl (by omega), fun hdots => ?_⟩
    refine g1.not_dot g4 fun hn => ?_
    have ht2 : t2 = (pre ++ pre2) ++ t4 := by rw [c1, d1]; simp
    have h46 : next t2 = 46 := by
      rw [ht2]
      cases hpp : pre ++ pre2 with
      | nil => rw [hpp] at hn; simp at hn
      | cons b l =>
        rw [hpp] at hn
        by_cases hb : b = 0
        · subst hb; simp at hn
        · simp [List.takeWhile_cons, hb] at hn
          rw [hn.1]; rfl
    have : t2 = t := by
      rcases h12 with e | ⟨_, e⟩
      · exact e
      · rw [h46] at e; exact absurd e (by decide)
    subst this
    have hi := hd hdots h46
    rw [ht2] at hi
    exact name_ne_dot hi d3 hn

theorem stops_keyword (hp : E.p = 0) (h : Reading E s w H t false) (hpl : PlainText dots t) (hk : H.length + t.length < E.k) (hf : t.length < fuel) :
    Stops (readKeyword E.k fuel s w) (fun r => ∃ H' t', Out E s H t r H' t' ∧ r.1 ≠ c_dot) := by
  unfold readKeyword
  obtain ⟨w1, e1, h1⟩ := file_read (h.file hp) s E.k
  rw [e1, ok_bind]
  dsimp only
  refine (stops_identifier (dots := true) hp (h.with hp h1) hpl.ascii hk hf (fun e => by cases e)).bind fun ⟨x, s1, w2⟩ ⟨H', t', o, _, _⟩ => ?_
  dsimp only
  refine (stops_makeString o.rd.names.base _).bind fun ⟨y, s2⟩ ⟨_, _, x2⟩ => ?_
  dsimp only at x2 ⊢
  refine (stops_tag _ _).bind fun _ _ => ?_
  split
  · exact .err
  · unfold symbolToKeyword
    rw [Res.bind_assoc']
    refine (stops_rd _ _).bind fun cl _ => ?_
    have hb := Room.base_ext o.rd.names.base x2
    refine (stops_makeCell hb ..).bind fun ⟨z, s3⟩ ⟨_, e⟩ => ?_
    cases e
    have x3 : Ext s1 (s2.push { tag := .keyword, car := cl.car, cdr := cl.cdr }) := x2.trans (push_ext s2 _)
    refine .ok ⟨H', t', ⟨o.rd.ext x3, o.frame.trans x3.frame, o.suffix, o.length⟩, ?_⟩
    simp only [c_symbol_max, c_dot] at *
    omega

/-- `reader_read_sexp` comes to an end. -/
def SexpStops (E : Env) (dots : Bool) (M fuel : Nat) : Prop := ∀ {s : St} {w : In} {H : List (List Byte × Int)} {t : List Byte}, PlainText dots t →
  Reading E s w H (t.drop 1) false → s.maxString ≤ M → H.length + t.length < E.k → 3 * t.length + M + 4 ≤ fuel →
  Stops (readSexp E.k fuel s w (next t)) (fun r => ∃ H' t', Out E s H t r H' t' ∧
    (t = [] ∨ next t = 11 ∨ next t = 13 ∨ t'.length < t.length) ∧ (dots = false → r.1 ≠ c_dot))

/-- The quotes come to an end. -/
def QuotedStops (E : Env) (dots : Bool) (M fuel : Nat) : Prop := ∀ {s : St} {w : In} {H : List (List Byte × Int)} {t : List Byte} (name : Int), PlainText dots t →
  Reading E s w H t false → s.maxString ≤ M → H.length + t.length < E.k → 3 * t.length + M + 5 ≤ fuel →
  Stops (readQuoted E.k fuel s w name) (fun r => ∃ H' t', Out E s H t r H' t' ∧ r.1 ≠ c_dot)

/-- `reader_read_list` comes to an end. -/
def ListStops (E : Env) (dots : Bool) (M fuel : Nat) : Prop := ∀ {s : St} {w : In} {H : List (List Byte × Int)} {t : List Byte}, PlainText dots t →
  Reading E s w H (t.drop 1) false → s.maxString ≤ M → H.length + t.length < E.k → 3 * t.length + M + 6 ≤ fuel →
  Stops (readList E.k fuel s w (next t)) (fun r => ∃ H' t', Out E s H t r H' t' ∧
    (dots = false → r.1 ≠ c_dot ∧ ∃ l : List Unit, ListOf r.2.1 (fun _ _ => True) r.1 l ∧ l.length + t'.length ≤ t.length))

/-- `reader_read_hash` comes to an end. -/
def HashStops (E : Env) (dots : Bool) (M fuel : Nat) : Prop := ∀ {s : St} {w : In} {H : List (List Byte × Int)} {t : List Byte}, PlainText dots (35 :: t) →
  Reading E s w H (t.drop 1) false → s.maxString ≤ M → H.length + t.length < E.k → 3 * t.length + M + 6 ≤ fuel →
  Stops (readHash E.k fuel s w (next t)) (fun r => ∃ H' t', Out E s H t r H' t' ∧ (dots = false → r.1 ≠ c_dot))

theorem stops_cons (hb : c_symbol_max ≤ s.free) (a d : Int) :
    Stops (cons s a d) (fun r => r.1 = s.free ∧ r.2 = s.push { tag := .pair, car := a, cdr := d } ∧ s.free < s.arena + g_cells) :=
  (stops_makeCell hb ..).mono fun r ⟨h1, h2⟩ => by subst h2; exact ⟨rfl, rfl, by have := h1.room; omega⟩

theorem read_next (hp : E.p = 0) (h : Reading E s w H t false) : ∃ w', readchar s w E.k = ok (next t, s, w') ∧ Reading E s w' H (t.drop 1) false := by
  obtain ⟨w1, e1, h1⟩ := file_read (h.file hp) s E.k
  exact ⟨w1, e1, h.with hp h1⟩

theorem peek_next (hp : E.p = 0) (h : Reading E s w H t false) : ∃ w', peekchar s w E.k = ok (next t, s, w') ∧ Reading E s w' H t false := by
  obtain ⟨w1, e1, h1⟩ := file_peek (h.file hp) s E.k
  exact ⟨w1, e1, h.with hp h1⟩

theorem Out.weaken {r : Int × St × In} (h : Out E s H t r H' t') {t₀ : List Byte} (hs : t <:+ t₀) : Out E s H t₀ r H' t' :=
  ⟨h.rd, h.frame, h.suffix.trans hs, by have := h.length; have := hs.length_le; omega⟩

theorem quoted_stops (hp : E.p = 0) (ih : SexpStops E dots M fuel) : QuotedStops E dots M (fuel + 1) := by
  intro s w H t name hpl h hm hk hf
  obtain ⟨w1, e1, h1⟩ := read_next hp h
  unfold readQuoted
  rw [e1, ok_bind]
  dsimp only
  refine (ih hpl h1 hm hk (by omega)).bind fun ⟨x, s1, w2⟩ ⟨H', t', o, _, _⟩ => ?_
  dsimp only [wrap]
  rw [Res.bind_assoc']
  refine (stops_cons o.rd.names.base ..).bind fun ⟨l, s2⟩ ⟨a1, a2, a3⟩ => ?_
  dsimp only at a1 a2 ⊢
  subst a1 a2
  have x2 := push_ext s1 { tag := .pair, car := x, cdr := c_nil }
  have hb := Room.base_ext o.rd.names.base x2
  refine (stops_cons hb ..).bind fun ⟨l, s2⟩ ⟨a1, a2, a3⟩ => ?_
  dsimp only at a1 a2 ⊢
  subst a1 a2
  have x3 := x2.trans (push_ext _ { tag := .pair, car := name, cdr := s1.free })
  refine .ok ⟨H', t', ⟨o.rd.ext x3, o.frame.trans (Ext.frame x3), o.suffix, o.length⟩, ?_⟩
  dsimp only
  simp only [c_symbol_max, c_dot] at *
  omega

theorem list_stops (hp : E.p = 0) (ih : SexpStops E dots M fuel) (ihl : ListStops E dots M fuel) : ListStops E dots M (fuel + 1) := by
  intro s w H t hpl h hm hk hf
  unfold readList
  refine (stops_eatWhitespace fuel w t hpl (h.file hp) (by omega)).bind fun ⟨c, s1, w1⟩ ⟨t1, a1, a2, a3⟩ => ?_
  obtain ⟨e1, e2, h1⟩ := a3
  dsimp only at e1 e2 h1 ⊢
  subst e1 e2
  have hl1 := a1.length_le
  split
  · rename_i h41
    have := length_drop1 (t := t1) (by rw [h41]; decide)
    refine .ok ⟨H, t1.drop 1, ⟨h.with hp h1, Frame.refl _ _, (suffix_drop t1 1).trans a1, by omega⟩, fun _ => ⟨(by decide : c_nil ≠ c_dot), [], .nil, ?_⟩⟩
    simp only [List.length_nil]
    omega
  split
  · exact .err
  rename_i hne
  refine (ih (hpl.suffix a1) (h.with hp h1) hm (by omega) (by omega)).bind fun ⟨x, s2, w2⟩ ⟨H2, t2, o2, b2, c2⟩ => ?_
  have b2 : t2.length < t1.length := by
    rcases b2 with b | b | b | b
    · subst b; exact absurd rfl hne
    · rw [b] at a2; exact absurd a2 (by decide)
    · rw [b] at a2; exact absurd a2 (by decide)
    · exact b
  dsimp only at c2 ⊢
  obtain ⟨w3, e3, h3⟩ := read_next hp o2.rd
  dsimp only at e3 h3
  have o2 := o2.weaken a1
  have hlen := o2.length
  have hm2 : s2.maxString ≤ M := by rw [o2.frame.maxString]; exact hm
  have rest := ihl (hpl.suffix o2.suffix) h3 hm2 (by omega) (by omega)
  split
  · rename_i hx
    rw [e3, ok_bind]
    dsimp only
    refine rest.bind fun ⟨l, s3, w4⟩ ⟨H4, t4, o4, _⟩ => ?_
    dsimp only
    refine (stops_car _ _).bind fun a _ => ?_
    have o := o2.trans o4
    exact .ok ⟨H4, t4, ⟨o.rd, o.frame, o.suffix, o.length⟩, fun hd => absurd hx (c2 hd)⟩
  · rw [e3, ok_bind]
    dsimp only
    refine rest.bind fun ⟨l, s3, w4⟩ ⟨H4, t4, o4, d4⟩ => ?_
    dsimp only at d4 ⊢
    have o := o2.trans o4
    refine (stops_cons o.rd.names.base ..).bind fun ⟨r, s4⟩ ⟨g1, g2, g3⟩ => ?_
    dsimp only at g1 g2 g3 ⊢
    subst g1 g2
    have x4 := push_ext s3 { tag := .pair, car := x, cdr := l }
    have hb : c_symbol_max ≤ s3.free := o.rd.names.base
    refine .ok ⟨H4, t4, ⟨o.rd.ext x4, o.frame.trans x4.frame, o.suffix, o.length⟩, fun hd => ⟨?_, ?_⟩⟩
    · dsimp only
      simp only [c_symbol_max, c_dot] at *
      omega
    obtain ⟨_, ls, hls, hlen⟩ := d4 hd
    refine ⟨() :: ls, ?_, by simp only [List.length_cons]; omega⟩
    have hcell := St.push_cell_free (s := s3) { tag := .pair, car := x, cdr := l }
    refine .cons ?_ ?_ ?_ trivial ?_
    · simp only [c_symbol_max, c_nil] at *; omega
    · exact ⟨by simp only [c_symbol_max, g_cells] at *; omega, by simp only [St.push_free]; omega⟩
    · rw [hcell]
    · rw [hcell]; exact hls.ext x4 (fun _ _ h => h)

theorem Stops.ite {α : Type} {c : Prop} [Decidable c] {a b : Res α} {P : α → Prop} (h1 : c → Stops a P) (h2 : ¬ c → Stops b P) : Stops (if c then a else b) P := by
  by_cases h : c
  · rw [if_pos h]; exact h1 h
  · rw [if_neg h]; exact h2 h

theorem hash_stops (hp : E.p = 0) (ih : SexpStops E dots M fuel) (ihq : QuotedStops E dots M fuel) (ihl : ListStops E dots M fuel) :
    HashStops E dots M (fuel + 1) := by
  intro s w H t hpl h hm hk hf
  have hpt : PlainText dots t := hpl.suffix ⟨[35], rfl⟩
  have hs := suffix_drop t 1
  have hl := hs.length_le
  have hb := h.names.base
  have hpd := hpt.suffix hs
  have quoted : ∀ {w' : In} {t' : List Byte} (name : Int), t' <:+ t.drop 1 → Reading E s w' H t' false →
      next t ≠ eof → Stops (readQuoted E.k fuel s w' name) (fun r => ∃ H' t', Out E s H t r H' t' ∧ (dots = false → r.1 ≠ c_dot)) :=
    fun {w' t'} name h1 h2 h3 => by
      have h4 := h1.length_le
      have h5 := length_drop1 h3
      refine (ihq name (hpd.suffix h1) h2 hm (by omega) (by omega)).mono fun r ⟨H', t', o, hd⟩ => ⟨H', t', o.weaken (h1.trans hs), fun _ => hd⟩
  have again : ∀ {s1 : St} {w' : In} {H1 : List (List Byte × Int)} {t' : List Byte}, t' <:+ t → t'.length < t.length ∨ t = [] → Frame E.touch s s1 →
      H1.length + t'.length ≤ H.length + t.length → Reading E s1 w' H1 t' false →
      Stops (do let (c, s, w) ← readchar s1 w' E.k; readSexp E.k fuel s w c) (fun r => ∃ H' t', Out E s H t r H' t' ∧ (dots = false → r.1 ≠ c_dot)) :=
    fun {s1 w' H1 t'} h1 h2 h3 h4 h5 => by
      obtain ⟨w1, e1, g1⟩ := read_next hp h5
      rw [e1, ok_bind]
      dsimp only
      have h6 : s1.maxString ≤ M := by rw [h3.maxString]; exact hm
      have h7 := h1.length_le
      refine (ih (hpt.suffix h1) g1 h6 (by omega) (by omega)).mono fun r ⟨H', t2, o, _, hd⟩ => ?_
      exact ⟨H', t2, ⟨o.rd, h3.trans o.frame, o.suffix.trans h1, by have := o.length; omega⟩, hd⟩
  have new : ∀ {m : Res (Int × St × In)}, Stops m (fun r => New s (t.drop 1) r) →
      Stops m (fun r => ∃ H' t', Out E s H t r H' t' ∧ (dots = false → r.1 ≠ c_dot)) := fun h1 =>
    h1.mono fun r h2 => by
      obtain ⟨t', o, hd⟩ := Out.of_new h hp h2
      exact ⟨H, t', o.weaken hs, fun _ => hd⟩
  unfold readHash
  refine .ite (fun hc => ?_) (fun n1 => ?_)
  · obtain ⟨x, v, rfl, hx⟩ := block_start hc
    obtain ⟨a, b, hv⟩ := hpl.closed [] v x hx rfl
    obtain ⟨w1, e1, h1⟩ := read_next hp h
    simp only [List.drop_succ_cons, List.drop_zero, next_cons] at h1 e1 ⊢
    rw [e1, ok_bind]
    dsimp only
    simp only [List.length_cons] at hf hk
    refine (stops_blockComment x fuel w1 v a b hv (h1.file hp) (by omega)).bind fun ⟨s2, w2⟩ ⟨t', a1, a2, a3⟩ => ?_
    dsimp only at a2 a3 ⊢
    subst a2
    have a4 := a1.length_le
    refine again (a1.trans hs) (.inl (by simp only [List.length_cons]; omega)) (Frame.refl _ _) (by simp only [List.length_cons]; omega) (h.with hp a3)
  refine .ite (fun _ => ?_) (fun n2 => ?_)
  · exact .ok ⟨H, t.drop 1, ⟨h, Frame.refl _ _, hs, by omega⟩, fun _ => (by decide : c_f ≠ c_dot)⟩
  refine .ite (fun _ => ?_) (fun n3 => ?_)
  · exact .ok ⟨H, t.drop 1, ⟨h, Frame.refl _ _, hs, by omega⟩, fun _ => (by decide : c_t ≠ c_dot)⟩
  refine .ite (fun hc => ?_) (fun n4 => ?_)
  · have hne : next t ≠ eof := by rw [hc]; decide
    obtain ⟨w1, e1, h1⟩ := peek_next hp h
    rw [e1, ok_bind]
    dsimp only
    refine .ite (fun _ => ?_) (fun n5 => ?_)
    · obtain ⟨w2, e2, h2⟩ := read_next hp h1
      rw [e2, ok_bind]
      exact quoted _ (suffix_drop _ 1) h2 hne
    · exact quoted _ (List.suffix_refl _) h1 hne
  refine .ite (fun hc => ?_) (fun n6 => ?_)
  · exact quoted _ (List.suffix_refl _) h (by rw [hc]; decide)
  refine .ite (fun hc => ?_) (fun n7 => ?_)
  · exact quoted _ (List.suffix_refl _) h (by rw [hc]; decide)
  refine .ite (fun _ => ?_) (fun n8 => ?_)
  · refine (stops_keyword hp h hpd (by omega) (by omega)).mono fun r ⟨H', t', o, hd⟩ => ⟨H', t', o.weaken hs, fun _ => hd⟩
  refine .ite (fun _ => ?_) (fun n9 => ?_)
  · exact new (stops_binaryOctal (h.file hp) hb (by omega))
  refine .ite (fun _ => ?_) (fun n10 => ?_)
  · exact new (stops_binaryOctal (h.file hp) hb (by omega))
  refine .ite (fun _ => ?_) (fun n11 => ?_)
  · exact new (stops_hex (h.file hp) hb (by omega))
  refine .ite (fun _ => ?_) (fun n12 => ?_)
  · exact new (stops_character (h.file hp) hb (by omega))
  refine .ite (fun hc => ?_) (fun n13 => ?_)
  · obtain ⟨v, rfl⟩ := next_byte (x := 40) hc
    have hd : dots = false := by
      cases dots with
      | false => rfl
      | true => exact absurd rfl (hpl.rest [] v)
    obtain ⟨w1, e1, h1⟩ := read_next hp h
    simp only [List.drop_succ_cons, List.drop_zero] at h1 e1 hpd ⊢
    simp only [List.length_cons] at hf hk
    rw [e1, ok_bind]
    dsimp only
    refine (ihl hpd h1 hm (by omega) (by omega)).bind fun ⟨l, s2, w2⟩ ⟨H2, t2, o2, d2⟩ => ?_
    obtain ⟨_, ls, d3, d4⟩ := d2 hd
    dsimp only at d3 ⊢
    have hb2 : c_symbol_max ≤ s2.free := o2.rd.names.base
    refine (stops_listToVector hb2 d3 (by omega)).bind fun ⟨x, s3⟩ ⟨g1, g2⟩ => ?_
    dsimp only at g1 g2 ⊢
    subst g1
    have o := o2.weaken hs
    refine .ok ⟨H2, t2, ⟨o.rd.ext g2, o.frame.trans g2.frame, o.suffix, o.length⟩, fun _ => ?_⟩
    dsimp only
    simp only [c_symbol_max, c_dot] at *
    omega
  refine .ite (fun hc => ?_) (fun n14 => ?_)
  · have hld := length_drop1 (t := t) (by rw [hc]; decide)
    obtain ⟨w1, e1, h1⟩ := read_next hp h
    rw [e1, ok_bind]
    dsimp only
    refine (ih hpd h1 hm (by omega) (by omega)).bind fun ⟨x, s2, w2⟩ ⟨H2, t2, o2, _, _⟩ => ?_
    dsimp only
    have := o2.suffix.length_le
    have := o2.length
    exact again (o2.suffix.trans hs) (.inl (by omega)) o2.frame (by omega) o2.rd
  · refine again hs ?_ (Frame.refl _ _) (by omega) h
    cases t with
    | nil => exact .inr rfl
    | cons b t => exact .inl (by simp)

theorem inner_identifier {c : Byte} (h : Inner c) : identifierP (code c) = true := by
  obtain ⟨h1, h2, h3, h4, h5, h6⟩ := h
  have key : ∀ d : Byte, c ≠ d → code c ≠ code d := fun d h e => h (code_inj.1 e)
  have k1 := key 34 h3
  have k2 := key 59 h4
  have k3 := key 40 h5
  have k4 := key 41 h6
  have k5 := code_ne_eof c
  have k6 : code c = (c.toNat : Int) := rfl
  simp only [show code 34 = 34 from rfl, show code 59 = 59 from rfl, show code 40 = 40 from rfl, show code 41 = 41 from rfl] at k1 k2 k3 k4
  simp only [identifierP, Bool.and_eq_true, decide_eq_true_eq]
  omega

theorem sexp_stops (hp : E.p = 0) (ih : SexpStops E dots M fuel) (ihq : QuotedStops E dots M fuel) (ihl : ListStops E dots M fuel)
    (ihh : HashStops E dots M fuel) : SexpStops E dots M (fuel + 1) := by
  intro s w H t hpl h hm hk hf
  have hs := suffix_drop t 1
  have hb := h.names.base
  have hpd := hpl.suffix hs
  by_cases he : next t = eof
  · unfold readSexp
    rw [if_pos he]
    refine .ok ⟨H, t.drop 1, ⟨h, Frame.refl _ _, hs, by have := hs.length_le; omega⟩, .inl (next_eof he), fun _ => (by decide : c_nil ≠ c_dot)⟩
  have hl := length_drop1 he
  have less : ∀ {m : Res (Int × St × In)} {t1 : List Byte}, t1 <:+ t.drop 1 → Stops m (fun r => ∃ H' t', Out E s H t1 r H' t' ∧ (dots = false → r.1 ≠ c_dot)) →
      Stops m (fun r => ∃ H' t', Out E s H t r H' t' ∧ (t = [] ∨ next t = 11 ∨ next t = 13 ∨ t'.length < t.length) ∧ (dots = false → r.1 ≠ c_dot)) :=
    fun {m t1} h1 h2 => h2.mono fun r ⟨H', t', o, hd⟩ => by
      have := o.suffix.length_le
      have := h1.length_le
      exact ⟨H', t', o.weaken (h1.trans hs), .inr (.inr (.inr (by omega))), hd⟩
  have quoted : ∀ {w' : In} {t' : List Byte} (name : Int), t' <:+ t.drop 1 → Reading E s w' H t' false →
      Stops (readQuoted E.k fuel s w' name) (fun r => ∃ H' t', Out E s H t r H' t' ∧
        (t = [] ∨ next t = 11 ∨ next t = 13 ∨ t'.length < t.length) ∧ (dots = false → r.1 ≠ c_dot)) :=
    fun {w' t'} name h1 h2 => by
      have h4 := h1.length_le
      exact less h1 ((ihq name (hpd.suffix h1) h2 hm (by omega) (by omega)).mono fun r ⟨H', t', o, hd⟩ => ⟨H', t', o, fun _ => hd⟩)
  unfold readSexp
  rw [if_neg he]
  refine .ite (fun hc => ?_) (fun n15 => ?_)
  · refine (stops_lineComment fuel w t (h.file hp) (by omega)).bind fun ⟨c, s1, w1⟩ ⟨t1, a1, a2, a3⟩ => ?_
    obtain ⟨e1, e2, h1⟩ := a3
    dsimp only at e1 e2 h1 ⊢
    subst e1 e2
    have hlt := suffix_lt a1 (fun e => by rw [e, hc] at a2; exact absurd a2 (by decide))
    refine (ih (hpl.suffix a1) (h.with hp h1) hm (by omega) (by omega)).mono fun r ⟨H', t', o, _, hd⟩ => ?_
    have := o.suffix.length_le
    exact ⟨H', t', o.weaken a1, .inr (.inr (.inr (by omega))), hd⟩
  refine .ite (fun _ => ?_) (fun n16 => ?_)
  · obtain ⟨w1, e1, h1⟩ := read_next hp h
    rw [e1, ok_bind]
    dsimp only
    exact less (List.suffix_refl _) ((ih hpd h1 hm (by omega) (by omega)).mono fun r ⟨H', t', o, _, hd⟩ => ⟨H', t', o, hd⟩)
  refine .ite (fun _ => ?_) (fun n17 => ?_)
  · obtain ⟨w1, e1, h1⟩ := read_next hp h
    rw [e1, ok_bind]
    dsimp only
    exact less (List.suffix_refl _) ((ihl hpd h1 hm (by omega) (by omega)).mono fun r ⟨H', t', o, hd⟩ => ⟨H', t', o, fun e => (hd e).1⟩)
  refine .ite (fun _ => ?_) (fun n18 => ?_)
  · exact .ok ⟨H, t.drop 1, ⟨h, Frame.refl _ _, hs, by omega⟩, .inr (.inr (.inr (by omega))), fun _ => (by decide : c_nil ≠ c_dot)⟩
  refine .ite (fun hc => ?_) (fun n19 => ?_)
  · obtain ⟨v, rfl⟩ := next_byte (x := 35) hc
    obtain ⟨w1, e1, h1⟩ := read_next hp h
    rw [e1, ok_bind]
    dsimp only
    exact less (List.suffix_refl _) (ihh hpl h1 hm (by omega) (by omega))
  refine .ite (fun _ => ?_) (fun n20 => ?_)
  · exact quoted _ (List.suffix_refl _) h
  refine .ite (fun _ => ?_) (fun n21 => ?_)
  · obtain ⟨w1, e1, h1⟩ := peek_next hp h
    rw [e1, ok_bind]
    dsimp only
    refine .ite (fun _ => ?_) (fun n22 => ?_)
    · obtain ⟨w2, e2, h2⟩ := read_next hp h1
      rw [e2, ok_bind]
      exact quoted _ (suffix_drop _ 1) h2
    · exact quoted _ (List.suffix_refl _) h1
  refine .ite (fun _ => ?_) (fun n23 => ?_)
  · exact quoted _ (List.suffix_refl _) h
  refine .ite (fun _ => ?_) (fun n24 => ?_)
  · refine less (List.suffix_refl _) ((stops_string (h.file hp) hb (by omega)).mono fun r h2 => ?_)
    obtain ⟨t', o, hd⟩ := Out.of_new h hp h2
    exact ⟨H, t', o, fun _ => hd⟩
  refine .ite (fun hc => ?_) (fun n25 => ?_)
  · obtain ⟨w1, e1, h1⟩ := peek_next hp h
    rw [e1, ok_bind]
    dsimp only
    refine .ite (fun hi => ?_) (fun n26 => ?_)
    · refine (stops_identifier (dots := dots) hp h1 hpl.ascii hk (by omega) (fun _ _ => hi)).mono fun r ⟨H', t', o, hd, hx⟩ => ?_
      refine ⟨H', t', o, .inr (.inr (.inr ?_)), hx⟩
      rcases hd with hd | hd
      · exact hd
      · rw [hc] at hd; exact absurd hd (by decide)
    · refine .ok ⟨H, t.drop 1, ⟨h1, Frame.refl _ _, hs, by omega⟩, .inr (.inr (.inr (by omega))), fun hd => ?_⟩
      subst hd
      obtain ⟨v, rfl⟩ := next_byte (x := 46) hc
      obtain ⟨c, v', rfl, hin⟩ := hpl.rest [] v rfl
      exact absurd (inner_identifier hin) n26
  · refine (stops_identifier (dots := dots) hp h hpl.ascii hk (by omega) (fun _ e => absurd e n25)).mono fun r ⟨H', t', o, hd, hx⟩ => ?_
    refine ⟨H', t', o, ?_, hx⟩
    rcases hd with hd | hd
    · exact .inr (.inr (.inr hd))
    · simp only [endOfWordP, C.isspace, Bool.or_eq_true, Bool.and_eq_true, decide_eq_true_eq] at hd
      right
      omega

theorem all_stop (hp : E.p = 0) (dots : Bool) (M : Nat) : ∀ fuel, SexpStops E dots M fuel ∧ QuotedStops E dots M fuel ∧ ListStops E dots M fuel ∧ HashStops E dots M fuel
  | 0 => ⟨by intro _ _ _ _ _ _ _ _ h; omega, by intro _ _ _ _ _ _ _ _ _ h; omega, by intro _ _ _ _ _ _ _ _ h; omega, by intro _ _ _ _ _ _ _ _ h; omega⟩
  | fuel + 1 =>
    have ⟨h1, h2, h3, h4⟩ := all_stop hp dots M fuel
    ⟨sexp_stops hp h1 h2 h3 h4, quoted_stops hp h1, list_stops hp h1 h3, hash_stops hp h1 h2 h3⟩

/-- The reader of one datum comes to an end. -/
theorem stops_readEnv (hp : E.p = 0) (h : Reading E s w H t false) (hpl : PlainText dots t) (hk : H.length + t.length < E.k)
    (hf : 3 * t.length + s.maxString + 4 ≤ fuel) :
    Stops (readEnv E.k fuel s w) (fun r => ∃ H' t', Out E s H t r H' t' ∧ (t = [] ∨ next t = 11 ∨ next t = 13 ∨ t'.length < t.length)) := by
  obtain ⟨w1, e1, h1⟩ := read_next hp h
  unfold readEnv
  rw [e1, ok_bind]
  dsimp only
  exact ((all_stop hp dots s.maxString fuel).1 hpl h1 (Nat.le_refl _) hk hf).mono fun r ⟨H', t', o, hd, _⟩ => ⟨H', t', o, hd⟩

/-- The reader of the whole text comes to an end. -/
theorem stops_readAll (hp : E.p = 0) (fuel M : Nat) : ∀ (more : Nat) (s : St) (w : In) (H : List (List Byte × Int)) (t : List Byte),
    Reading E s w H t false → PlainText dots t → (∀ b ∈ t, b ≠ 11 ∧ b ≠ 13) → H.length + t.length < E.k → s.maxString ≤ M → 3 * t.length + M + 4 ≤ fuel →
    t.length + 1 < more + 1 → readAll E.k fuel more s w ≠ loop
  | 0, _, _, _, _, _, _, _, _, _, _, hm => by omega
  | more + 1, s, w, H, t, h, hpl, hno, hk, hM, hf, hm => by
    have step := stops_readEnv hp h hpl hk (fuel := fuel) (by omega)
    unfold readAll
    cases t with
    | nil =>
      obtain ⟨w1, e1, h1⟩ := read_next hp h
      have : readEnv E.k fuel s w = ok (c_nil, s, w1) := by
        unfold readEnv
        rw [e1, ok_bind]
        obtain ⟨f, rfl⟩ : ∃ f, fuel = f + 1 := ⟨fuel - 1, by omega⟩
        unfold readSexp
        exact if_pos rfl
      rw [this, ok_bind]
      dsimp only
      rw [if_pos rfl]
      exact nofun
    | cons b t =>
      refine (step.bind (R := fun _ => True) fun ⟨x, s1, w1⟩ ⟨H', t', o, hd⟩ => ?_).1
      dsimp only
      split
      · exact .ok trivial
      · have hlen : t'.length < (b :: t).length := by
          rcases hd with hd | hd | hd | hd
          · cases hd
          · exact absurd (code_inj.1 (show code b = code 11 from hd)) (hno b (by simp)).1
          · exact absurd (code_inj.1 (show code b = code 13 from hd)) (hno b (by simp)).2
          · exact hd
        have := o.length
        have hs1 : s1.maxString ≤ M := by rw [o.frame.maxString]; exact hM
        have rest := stops_readAll hp fuel M more s1 w1 H' t' o.rd (hpl.suffix o.suffix) (fun b hb => hno b (o.suffix.subset hb)) (by omega) hs1 (by omega) (by omega)
        cases hr : readAll E.k fuel more s1 w1 with
        | loop => exact absurd hr rest
        | err e => exact .err
        | abort => exact .abort
        | ub => exact .ub
        | ok r =>
          rw [ok_bind]
          cases hc : cons r.2.1 x r.1 with
          | loop => unfold cons makeCell at hc; dsimp only at hc; split at hc <;> cases hc
          | err e => exact .err
          | abort => exact .abort
          | ub => exact .ub
          | ok q => rw [ok_bind]; exact .ok trivial

end Mes
