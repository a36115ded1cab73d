import Verif.Proof.Reader
namespace Mes
open Res Spec

variable {E : Env} {s s' s'' : St} {w w' w'' : In} {H H' H'' : List (List Byte × Int)} {bs bs' rest g : List Byte} {c : Byte}
  {clear clear' : Bool} {A B A' B' l l' fuel : Nat} {P : Int → Prop}

theorem code_inj {c d : Byte} : code c = code d ↔ c = d := by
  unfold code
  constructor
  · intro h; exact UInt8.toNat_inj.1 (by omega)
  · rintro rfl; rfl

/-! ### Comments and white space -/

theorem readLineComment_ok : ∀ (cs : List Byte) {c : Byte} {fuel A B : Nat} {s w clear}, 10 ∉ cs → c ≠ 10 → cs.length + 1 < fuel →
    RoomFor E s A B → cs.length + 1 ≤ B → Reading E s w H (cs ++ 10 :: g) clear →
    ∃ s' w', readLineComment E.k fuel s w (code c) = ok (10, s', w') ∧ Run E s H s' w' H g true 0 (cs.length + 1) 0
  | cs, c, fuel, A, B, s, w, clear, hcs, hc, hf, hr, hB, h => by
    obtain ⟨fuel, rfl⟩ : ∃ f, fuel = f + 1 := ⟨fuel - 1, by omega⟩
    have h0 := code_nonneg c
    have h1 : ¬ code c = 10 := fun e => hc (code_inj.1 (e.trans (show (10 : Int) = code 10 from rfl)))
    have hne : code c ≠ eof := by unfold eof; omega
    match cs, hcs, hf, hB, h with
    | [], hcs, hf, hB, h =>
      obtain ⟨s1, w1, r1, r2⟩ := Reading.read (c := 10) (bs := g) h hr (by omega)
      obtain ⟨fuel, rfl⟩ : ∃ f, fuel = f + 1 := ⟨fuel - 1, by simp at hf; omega⟩
      refine ⟨s1, w1, ?_, by simpa using r2⟩
      have : code 10 = 10 := rfl
      simp only [readLineComment, if_pos hne, if_neg h1, r1, ok_bind, this]
      simp [eof]
    | d :: cs, hcs, hf, hB, h =>
      obtain ⟨s1, w1, r1, r2⟩ := Reading.read (c := d) (bs := cs ++ 10 :: g) h hr (by omega)
      simp only [List.length_cons, List.mem_cons, not_or] at hf hB hcs
      obtain ⟨s2, w2, k1, k2⟩ := readLineComment_ok cs (c := d) (fuel := fuel) (A := A) (B := cs.length + 1) hcs.2 (Ne.symm hcs.1) (by omega)
        (r2.room hr (by omega) (by omega)) (Nat.le_refl _) r2.rd
      refine ⟨s2, w2, ?_, (r2.trans k2).weaken (by omega) (by simp; omega) (by omega)⟩
      simp only [readLineComment, if_pos hne, if_neg h1, r1, ok_bind, k1]

theorem not_infix_cons {t a : Byte} {l : List Byte} (h : ¬ [t, 35] <:+: a :: l) :
    ¬ [t, 35] <:+: l ∧ (a = t → ∀ r, l ≠ 35 :: r) := by
  rw [List.infix_cons_iff, not_or] at h
  refine ⟨h.2, ?_⟩
  rintro rfl r rfl
  exact h.1 ⟨r, by simp⟩

theorem readBlockComment_ok {t : Byte} : ∀ (cs : List Byte) {c : Byte} {r : List Byte} {fuel A B : Nat} {s w clear},
    c :: r = cs ++ t :: 35 :: g → t ≠ 35 → ¬ [t, 35] <:+: cs ++ [t] → cs.length < fuel → RoomFor E s A B → cs.length + 1 ≤ B →
    Reading E s w H r clear →
    ∃ s' w', readBlockComment E.k (code t) fuel s w (code c) = ok (s', w') ∧ Run E s H s' w' H g true 0 (cs.length + 1) 0
  | cs, c, r, fuel, A, B, s, w, clear, ht, h35, hcs, hf, hr, hB, h => by
    obtain ⟨fuel, rfl⟩ : ∃ f, fuel = f + 1 := ⟨fuel - 1, by omega⟩
    have hc35 : code 35 = 35 := rfl
    match cs, ht, hcs, hf, hB with
    | [], ht, hcs, hf, hB =>
      obtain ⟨rfl, rfl⟩ := List.cons.inj ht
      obtain ⟨w1, p1, p2⟩ := h.peek
      obtain ⟨s1, w2, r1, r2⟩ := p2.read hr (by omega)
      refine ⟨s1, w2, ?_, by simpa using r2⟩
      simp only [readBlockComment, if_true, p1, ok_bind, r1, hc35]
    | d :: cs, ht, hcs, hf, hB =>
      simp only [List.cons_append, List.length_cons] at ht hcs hf hB
      obtain ⟨rfl, rfl⟩ := List.cons.inj ht
      obtain ⟨n1, n2⟩ := not_infix_cons hcs
      obtain ⟨c', r', hr'⟩ : ∃ c' r', cs ++ t :: 35 :: g = c' :: r' := by cases cs <;> simp
      rw [hr'] at h
      by_cases e : code c = code t
      · have hc' : c' ≠ 35 := by
          rintro rfl
          cases cs with
          | nil =>
            simp only [List.nil_append, List.cons.injEq] at hr'
            exact h35 hr'.1
          | cons x cs =>
            simp only [List.cons_append, List.cons.injEq] at hr' n2
            exact n2 (code_inj.1 e) (cs ++ [t]) (by rw [hr'.1])
        have hc'' : ¬ code c' = 35 := fun e => hc' (code_inj.1 (e.trans hc35.symm))
        obtain ⟨w1, p1, p2⟩ := h.peek
        obtain ⟨s1, w2, r1, r2⟩ := p2.read hr (by omega)
        obtain ⟨s2, w3, k1, k2⟩ := readBlockComment_ok cs (c := c') (r := r') (fuel := fuel) (A := A) (B := cs.length + 1) hr'.symm h35 n1
          (by omega) (r2.room hr (by omega) (by omega)) (Nat.le_refl _) r2.rd
        refine ⟨s2, w3, ?_, (r2.trans k2).weaken (by omega) (by simp; omega) (by omega)⟩
        simp only [readBlockComment, if_pos e, p1, ok_bind, if_neg hc'', r1, k1]
      · obtain ⟨s1, w2, r1, r2⟩ := h.read hr (by omega)
        obtain ⟨s2, w3, k1, k2⟩ := readBlockComment_ok cs (c := c') (r := r') (fuel := fuel) (A := A) (B := cs.length + 1) hr'.symm h35 n1
          (by omega) (r2.room hr (by omega) (by omega)) (Nat.le_refl _) r2.rd
        refine ⟨s2, w3, ?_, (r2.trans k2).weaken (by omega) (by simp; omega) (by omega)⟩
        simp only [readBlockComment, if_neg e, ok_bind, r1, k1]

/-- White space in a list ends at this character. -/
structure Stop (c : Byte) (rest : List Byte) : Prop where
  space : C.isspace (code c) = false
  comment : c ≠ 59
  hash : c = 35 → next rest ≠ 33 ∧ next rest ≠ 124

theorem Spec.Space.head {sp : List Byte} (h : Space sp) (stop : Byte) (rest : List Byte) : ∃ c r, sp ++ stop :: rest = c :: r := by
  cases sp <;> simp

theorem eatWhitespace_ok {sp : List Byte} (hsp : Space sp) : ∀ {stop : Byte} {fuel A B : Nat} {s w clear}, sp.length < fuel →
    Stop stop rest → RoomFor E s A B → sp.length ≤ B → Reading E s w H ((sp ++ stop :: rest).drop 1) clear →
    ∃ s' w', eatWhitespace E.k fuel s w (next (sp ++ stop :: rest)) = ok (code stop, s', w') ∧
      Run E s H s' w' H rest false 0 sp.length 0 := by
  induction hsp with
  | none =>
    intro stop fuel A B s w clear hf hst hr hB h
    simp only [List.nil_append, List.drop_succ_cons, List.drop_zero] at h
    obtain ⟨fuel, rfl⟩ : ∃ f, fuel = f + 1 := ⟨fuel - 1, by simp at hf; omega⟩
    have n59 : ¬ code stop = 59 := fun e => hst.comment (code_inj.1 e)
    simp only [List.nil_append, next_cons]
    simp only [eatWhitespace, hst.space, Bool.false_eq_true, if_false, if_neg n59]
    by_cases e : code stop = 35
    · obtain ⟨w1, p1, p2⟩ := h.peek'
      obtain ⟨q1, q2⟩ := hst.hash (code_inj.1 e)
      refine ⟨s, w1, ?_, p2.run⟩
      rw [if_pos e, p1]
      simp only [ok_bind, if_neg (not_or.2 ⟨q1, q2⟩)]
    · exact ⟨s, w, by rw [if_neg e], h.weaken.run⟩
  | @white b g hb _ ih =>
    intro stop fuel A B s w clear hf hst hr hB h
    simp only [List.length_cons, List.cons_append, List.drop_succ_cons, List.drop_zero] at hf hB h
    obtain ⟨fuel, rfl⟩ : ∃ f, fuel = f + 1 := ⟨fuel - 1, by omega⟩
    have hs : C.isspace (code b) = true := by
      unfold C.isspace code
      simp only [byte_lit] at hb
      simp only [Bool.or_eq_true, decide_eq_true_eq]
      omega
    obtain ⟨s1, w1, r1, r2, r3⟩ := h.take hr (by omega)
    obtain ⟨s2, w2, k1, k2⟩ := ih (fuel := fuel) (A := A) (B := g.length) (by omega) hst (r3.room hr (by omega) (by omega)) (Nat.le_refl _) r2.rd
    refine ⟨s2, w2, ?_, (r3.trans k2).weaken (by omega) (by simp; omega) (by omega)⟩
    simp only [List.cons_append, next_cons, eatWhitespace, hs, if_true, r1, ok_bind, k1]
  | @line cs g hcs _ ih =>
    intro stop fuel A B s w clear hf hst hr hB h
    simp only [List.length_cons, List.length_append, List.cons_append, List.append_assoc, List.drop_succ_cons, List.drop_zero] at hf hB h
    obtain ⟨fuel, rfl⟩ : ∃ f, fuel = f + 2 := ⟨fuel - 2, by omega⟩
    obtain ⟨s1, w1, r1, r2⟩ := readLineComment_ok (c := 59) (fuel := fuel + 1) cs hcs (by decide) (by omega) hr (by omega) h
    obtain ⟨s2, w2, t1, t2, t3⟩ := r2.rd.take (r2.room hr (A₂ := A) (B₂ := 1) (by omega) (by omega)) (by omega)
    have R := r2.trans t3
    obtain ⟨s3, w3, k1, k2⟩ := ih (fuel := fuel) (A := A) (B := g.length) (by omega) hst (R.room hr (by omega) (by omega)) (Nat.le_refl _) t2.rd
    refine ⟨s3, w3, ?_, (R.trans k2).weaken (by omega) (by simp; omega) (by omega)⟩
    have e59 : code 59 = 59 := rfl
    have sp59 : C.isspace 59 = false := rfl
    have sp10 : C.isspace 10 = true := rfl
    rw [e59] at r1
    simp only [List.cons_append, next_cons, List.append_assoc]
    rw [eatWhitespace]
    simp only [e59, sp59, Bool.false_eq_true, if_false, if_true, r1, ok_bind]
    rw [eatWhitespace]
    simp only [sp10, if_true, t1, ok_bind, k1]
  | @block t cs g ht hcs _ ih =>
    intro stop fuel A B s w clear hf hst hr hB h
    simp only [List.length_cons, List.length_append, List.cons_append, List.append_assoc, List.drop_succ_cons, List.drop_zero] at hf hB h
    obtain ⟨fuel, rfl⟩ : ∃ f, fuel = f + 1 := ⟨fuel - 1, by omega⟩
    have t35 : t ≠ 35 := by rcases ht with rfl | rfl <;> decide
    obtain ⟨w0, p1, p2⟩ := h.peek
    obtain ⟨s1, w1, r1, r2⟩ := p2.read hr (by omega)
    obtain ⟨c', r', hr'⟩ : ∃ c' r', cs ++ t :: 35 :: (g ++ stop :: rest) = c' :: r' := by cases cs <;> simp
    obtain ⟨s2, w2, q1, q2⟩ := Reading.read (c := c') (bs := r') (by rw [← hr']; exact r2.rd) (r2.room hr (A₂ := A) (B₂ := 1) (by omega) (by omega)) (by omega)
    have R2 := r2.trans q2
    obtain ⟨s3, w3, b1, b2⟩ := readBlockComment_ok (fuel := fuel) (A := A) (B := cs.length + 1) cs hr'.symm t35 hcs (by omega)
      (R2.room hr (by omega) (by omega)) (Nat.le_refl _) q2.rd
    have R3 := R2.trans b2
    obtain ⟨s4, w4, t1, t2, t3⟩ := b2.rd.take (R3.room hr (A₂ := A) (B₂ := 1) (by omega) (by omega)) (by omega)
    have R4 := R3.trans t3
    obtain ⟨s5, w5, k1, k2⟩ := ih (fuel := fuel) (A := A) (B := g.length) (by omega) hst (R4.room hr (by omega) (by omega)) (Nat.le_refl _) t2.rd
    refine ⟨s5, w5, ?_, (R4.trans k2).weaken (by omega) (by simp; omega) (by omega)⟩
    have e35 : code 35 = 35 := rfl
    have sp35 : C.isspace 35 = false := rfl
    have ht' : code t = 33 ∨ code t = 124 := by rcases ht with rfl | rfl <;> decide
    simp only [List.cons_append, next_cons, List.append_assoc]
    rw [eatWhitespace]
    simp only [e35, sp35, Bool.false_eq_true, if_false, if_neg (show ¬ (35 : Int) = 59 by omega), if_true, p1, ok_bind, if_pos ht', r1,
      q1, b1, t1, k1]

/-! ### Strings -/

theorem escapes_ok : ∀ e ∈ stringEscapes, escapes.lookup (code e.1) = some (code e.2) := by decide

theorem readStringLoop_ok {bs t : List Byte} (hb : StringBody bs t) : ∀ {fuel A B : Nat} {buf : List Byte} {s w clear}, t.length < fuel →
    buf.length + bs.length < s.maxString → RoomFor E s A B → t.length + 1 ≤ B → Reading E s w H (t ++ 34 :: rest) clear →
    ∃ s' w', readStringLoop E.k fuel s w buf = ok (buf ++ bs, s', w') ∧ Run E s H s' w' H rest true 0 (t.length + 1) 0 := by
  induction hb with
  | nil =>
    intro fuel A B buf s w clear hf hm hr hB h
    obtain ⟨fuel, rfl⟩ : ∃ f, fuel = f + 1 := ⟨fuel - 1, by simp at hf; omega⟩
    obtain ⟨s1, w1, r1, r2⟩ := Reading.read (c := 34) (bs := rest) h hr (by omega)
    refine ⟨s1, w1, ?_, by simpa using r2⟩
    have e34 : code 34 = 34 := rfl
    simp only [readStringLoop, if_neg (show ¬ s.maxString < buf.length by simp at hm; omega), r1, ok_bind, e34, if_true, List.append_nil]
  | @plain b bs t h1 h2 _ ih =>
    intro fuel A B buf s w clear hf hm hr hB h
    simp only [List.length_cons] at hf hm hB
    obtain ⟨fuel, rfl⟩ : ∃ f, fuel = f + 1 := ⟨fuel - 1, by omega⟩
    obtain ⟨s1, w1, r1, r2⟩ := Reading.read (c := b) (bs := t ++ 34 :: rest) h hr (by omega)
    obtain ⟨s2, w2, k1, k2⟩ := ih (fuel := fuel) (A := A) (B := t.length + 1) (buf := buf ++ [b]) (by omega)
      (by rw [r2.frame.maxString]; simp; omega) (r2.room hr (by omega) (by omega)) (Nat.le_refl _) r2.rd
    refine ⟨s2, w2, ?_, (r2.trans k2).weaken (by omega) (by simp; omega) (by omega)⟩
    have n1 : ¬ code b = 34 := fun e => h1 (code_inj.1 e)
    have n2 : ¬ code b = 92 := fun e => h2 (code_inj.1 e)
    simp only [readStringLoop, if_neg (show ¬ s.maxString < buf.length by omega), r1, ok_bind, if_neg n1, if_neg n2]
    rw [ubUnless_true (by rw [r2.frame.maxString]; omega)]
    simp only [ok_bind, toByte_code, k1]
    simp
  | @escape c b bs t he _ ih =>
    intro fuel A B buf s w clear hf hm hr hB h
    simp only [List.length_cons] at hf hm hB
    obtain ⟨fuel, rfl⟩ : ∃ f, fuel = f + 1 := ⟨fuel - 1, by omega⟩
    obtain ⟨s1, w1, r1, r2⟩ := Reading.read (c := 92) (bs := c :: (t ++ 34 :: rest)) h hr (by omega)
    obtain ⟨s2, w2, q1, q2⟩ := r2.rd.read (r2.room hr (A₂ := A) (B₂ := 1) (by omega) (by omega)) (by omega)
    have R2 := r2.trans q2
    obtain ⟨s3, w3, k1, k2⟩ := ih (fuel := fuel) (A := A) (B := t.length + 1) (buf := buf ++ [b]) (by omega)
      (by rw [R2.frame.maxString]; simp; omega) (R2.room hr (by omega) (by omega)) (Nat.le_refl _) q2.rd
    refine ⟨s3, w3, ?_, (R2.trans k2).weaken (by omega) (by simp; omega) (by omega)⟩
    have e92 : code 92 = 92 := rfl
    have he' := escapes_ok _ he
    simp only at he'
    simp only [readStringLoop, if_neg (show ¬ s.maxString < buf.length by omega), r1, ok_bind, e92, if_neg (show ¬ (92 : Int) = 34 by omega),
      if_true, q1, readEscape, he']
    rw [ubUnless_true (by rw [R2.frame.maxString]; omega)]
    simp only [ok_bind, toByte_code, k1]
    simp

theorem readString_ok {bs t : List Byte} (hb : StringBody bs t) (hf : t.length < fuel) (hm : bs.length < E.mx) (hr : RoomFor E s A B)
    (hA : bs.length / 8 + 5 ≤ A) (hB : t.length + 1 ≤ B) (h : Reading E s w H (t ++ 34 :: rest) clear) :
    ∃ x s' w', readString E.k fuel s w = ok (x, s', w') ∧ IsString s' x bs ∧ s.free ≤ x ∧
      Run E s H s' w' H rest true (bs.length / 8 + 5) (t.length + 1) 0 := by
  obtain ⟨s1, w1, r1, r2⟩ := readStringLoop_ok hb (buf := []) hf (by have := h.mx; simp; omega) hr hB h
  have hmx := r2.rd.mx
  obtain ⟨s2, k1, k2, k3, k4⟩ := makeString_ok (s := s1) (bs := bs) (by omega)
    ((r2.room hr (A₂ := bs.length / 8 + 5) (B₂ := 0) (by omega) (by omega)).cells (by unfold stringCells; omega))
  have hsc : stringCells bs.length = ((bs.length / 8 + 5 : Nat) : Int) := by unfold stringCells; omega
  rw [hsc] at k4
  refine ⟨_, s2, w1, ?_, k2, r2.frame.le, (r2.trans (r2.rd.alloc k3 k4)).weaken (by omega) (by omega) (by omega)⟩
  simp only [readString, r1, ok_bind, List.nil_append]
  rw [ubUnless_true (by omega)]
  simp only [ok_bind, k1]

/-! ### Characters -/

theorem next_bound (l : List Byte) : -1 ≤ next l ∧ next l < 256 := by
  cases l with
  | nil => decide
  | cons c r => have := code_nonneg c; have := code_lt c; rw [next_cons]; omega

theorem ends_cases (h : Ends rest) : next rest = -1 ∨ next rest = 9 ∨ next rest = 10 ∨ next rest = 11 ∨ next rest = 12 ∨
    next rest = 13 ∨ next rest = 32 ∨ next rest = 34 ∨ next rest = 40 ∨ next rest = 41 ∨ next rest = 59 := by
  cases rest with
  | nil => exact .inl rfl
  | cons c r =>
    simp only [Ends, IsDelimiter, byte_lit] at h
    rw [next_cons]
    unfold code
    omega

theorem makeChar_run (h : Reading E s w H bs clear) (hr : RoomFor E s A B) (hA : 1 ≤ A) {n : Int} (hn : -2147483648 ≤ n ∧ n ≤ 2147483647) :
    ∃ s', makeChar s n = ok (s.free, s') ∧ IsChar s' s.free n ∧ (s'.cell s.free).car = 0 ∧ Run E s H s' w H bs clear 1 0 0 := by
  have x1 := push_ext s { tag := .char, car := 0, cdr := toInt32 n }
  refine ⟨_, makeChar_ok (hr.cells (by omega)) n, ⟨(hr.cells (k := 1) (by omega)).free_valid _, by simp, ?_⟩, by simp, h.alloc x1 (by simp)⟩
  simp [toInt32_id hn.1 hn.2]

theorem makeNumber_run (h : Reading E s w H bs clear) (hr : RoomFor E s A B) (hA : 1 ≤ A) (n : Int) :
    ∃ s', makeNumber s n = ok (s.free, s') ∧ IsNum s' s.free n ∧ (s'.cell s.free).car = 0 ∧ Run E s H s' w H bs clear 1 0 0 := by
  have x1 := push_ext s { tag := .number, car := 0, cdr := n }
  exact ⟨_, makeNumber_ok (hr.cells (by omega)) n, (hr.cells (k := 1) (by omega)).push_isNum n, by simp, h.alloc x1 (by simp)⟩

theorem readCharacter_one (c : Byte) (he : Ends rest) (hr : RoomFor E s A B) (hA : 1 ≤ A) (hB : 1 ≤ B)
    (h : Reading E s w H (c :: rest) clear) :
    ∃ x s' w', readCharacter E.k fuel s w = ok (x, s', w') ∧ IsChar s' x (code c) ∧ (s.free ≤ x ∧ (s'.cell x).car = 0) ∧
      Run E s H s' w' H rest false 1 1 0 := by
  obtain ⟨s1, w1, r1, r2⟩ := h.read hr hB
  obtain ⟨w2, p1, p2⟩ := r2.rd.peek'
  obtain ⟨s2, k1, k2, k0, k3⟩ := makeChar_run (n := code c) p2 (r2.room hr (A₂ := 1) (B₂ := 0) (by omega) (by omega)) (Nat.le_refl _)
    (by have := code_nonneg c; have := code_lt c; omega)
  have R : Run E s H s1 w2 H rest false 0 1 0 := ⟨p2, r2.frame, r2.free, r2.grown, r2.length, r2.newer⟩
  refine ⟨_, s2, w2, ?_, k2, ⟨r2.frame.le, k0⟩, (R.trans k3).weaken (by omega) (by omega) (by omega)⟩
  have hc := ends_cases he
  have n1 : ¬ (48 ≤ code c ∧ code c ≤ 55 ∧ 48 ≤ next rest ∧ next rest ≤ 55) := by omega
  have n2 : ¬ (code c = 120 ∧ ((48 ≤ next rest ∧ next rest ≤ 57) ∨ (97 ≤ next rest ∧ next rest ≤ 102) ∨
    (70 ≤ next rest ∧ next rest ≤ 70))) := by omega
  have n3 : charNameP (next rest) = false := by
    unfold charNameP
    rw [Bool.eq_false_iff]
    simp only [ne_eq, Bool.or_eq_true, Bool.and_eq_true, decide_eq_true_eq]
    omega
  simp only [readCharacter, r1, ok_bind, p1, if_neg n1, if_neg n2, n3, Bool.false_eq_true, and_false, if_false, k1]

theorem readCharName_ok : ∀ (cs : List Byte) {fuel A B : Nat} {buf : List Byte} {s w clear}, (∀ c ∈ cs, charNameP (code c) = true) →
    cs.length < fuel → Ends rest → buf.length + cs.length < 10 → RoomFor E s A B → cs.length ≤ B →
    Reading E s w H (cs ++ rest) clear →
    ∃ s' w', readCharName E.k fuel s w (next (cs ++ rest)) buf = ok (buf ++ cs, s', w') ∧ Run E s H s' w' H rest false 0 cs.length 0
  | [], fuel, A, B, buf, s, w, clear, hc, hf, he, hl, hr, hB, h => by
    obtain ⟨fuel, rfl⟩ : ∃ f, fuel = f + 1 := ⟨fuel - 1, by simp at hf; omega⟩
    refine ⟨s, w, ?_, h.weaken.run⟩
    have hc := ends_cases he
    have n3 : charNameP (next rest) = false := by
      unfold charNameP
      rw [Bool.eq_false_iff]
      simp only [ne_eq, Bool.or_eq_true, Bool.and_eq_true, decide_eq_true_eq]
      omega
    simp only [List.nil_append]
    simp only [readCharName, n3, Bool.false_eq_true, if_false]
    rw [ubUnless_true (by simp at hl; omega)]
    simp
  | c :: cs, fuel, A, B, buf, s, w, clear, hc, hf, he, hl, hr, hB, h => by
    simp only [List.length_cons] at hf hl hB
    obtain ⟨fuel, rfl⟩ : ∃ f, fuel = f + 1 := ⟨fuel - 1, by omega⟩
    obtain ⟨s1, w1, r1, r2⟩ := Reading.read (c := c) (bs := cs ++ rest) h hr (by omega)
    obtain ⟨w2, p1, p2⟩ := r2.rd.peek'
    have R : Run E s H s1 w2 H (cs ++ rest) false 0 1 0 := ⟨p2, r2.frame, r2.free, r2.grown, r2.length, r2.newer⟩
    obtain ⟨s2, w3, k1, k2⟩ := readCharName_ok cs (fuel := fuel) (A := A) (B := cs.length) (buf := buf ++ [c])
      (fun c' hc' => hc c' (List.mem_cons_of_mem _ hc')) (by omega) he (by simp; omega) (R.room hr (by omega) (by omega)) (Nat.le_refl _) p2
    refine ⟨s2, w3, ?_, (R.trans k2).weaken (by omega) (by simp; omega) (by omega)⟩
    simp only [List.cons_append, next_cons]
    simp only [readCharName, hc c (List.mem_cons_self ..), if_true, r1, ok_bind]
    rw [ubUnless_true (by omega)]
    simp only [ok_bind, p1, toByte_code, k1]
    simp

theorem characterNames_ok : ∀ e ∈ characterNames, charNames.lookup e.1 = some e.2 ∧ 2 ≤ e.1.length ∧ e.1.length < 10 ∧
    (∀ c ∈ e.1, charNameP (code c) = true) ∧ e.1.head? ≠ some 120 ∧ -2147483648 ≤ e.2 ∧ e.2 ≤ 2147483647 := by decide

theorem readCharacter_name {name : List Byte} {n : Int} (hn : (name, n) ∈ characterNames) (he : Ends rest) (hf : name.length < fuel)
    (hr : RoomFor E s A B) (hA : 1 ≤ A) (hB : name.length ≤ B) (h : Reading E s w H (name ++ rest) clear) :
    ∃ x s' w', readCharacter E.k fuel s w = ok (x, s', w') ∧ IsChar s' x n ∧ (s.free ≤ x ∧ (s'.cell x).car = 0) ∧
      Run E s H s' w' H rest false 1 name.length 0 := by
  obtain ⟨hl, h2, h10, hc, h120, hb⟩ := characterNames_ok _ hn
  simp only at hl h2 h10 hc h120 hb
  match name, h2, h10, hc, h120, hl, hf, hB, h with
  | c :: d :: cs, h2, h10, hc, h120, hl, hf, hB, h =>
    simp only [List.length_cons] at hf hB h10
    obtain ⟨s1, w1, r1, r2⟩ := Reading.read (c := c) (bs := d :: cs ++ rest) h hr (by omega)
    obtain ⟨w2, p1, p2⟩ := r2.rd.peek
    have R : Run E s H s1 w2 H (d :: cs ++ rest) false 0 1 0 := ⟨p2, r2.frame, r2.free, r2.grown, r2.length, r2.newer⟩
    obtain ⟨s2, w3, k1, k2⟩ := readCharName_ok (d :: cs) (fuel := fuel) (A := A) (B := cs.length + 1) (buf := [c])
      (fun c' hc' => hc c' (List.mem_cons_of_mem _ hc')) (by simp; omega) he (by simp; omega) (R.room hr (by omega) (by omega)) (by simp) p2
    have R2 := R.trans k2
    obtain ⟨s3, m1, m2, m0, m3⟩ := makeChar_run (n := n) k2.rd (R2.room hr (A₂ := 1) (B₂ := 0) (by omega) (by simp; omega)) (Nat.le_refl _) hb
    refine ⟨_, s3, w3, ?_, m2, ⟨R2.frame.le, m0⟩, (R2.trans m3).weaken (by omega) (by simp; omega) (by omega)⟩
    have c1 := hc c (by simp)
    have c2 := hc d (by simp)
    have b1 : (97 ≤ code c ∧ code c ≤ 122) ∨ code c = 42 := by
      unfold charNameP at c1
      simpa only [Bool.or_eq_true, Bool.and_eq_true, decide_eq_true_eq] using c1
    have n1 : ¬ (48 ≤ code c ∧ code c ≤ 55 ∧ 48 ≤ code d ∧ code d ≤ 55) := by omega
    have n2 : ¬ code c = 120 := fun e => h120 (by rw [List.head?_cons, code_inj.1 (e.trans (show (120 : Int) = code 120 from rfl))])
    simp only [List.cons_append, next_cons] at k1
    simp only [readCharacter, r1, ok_bind, p1, if_neg n1, n2, false_and, if_false, c1, c2, and_self, if_true, toByte_code, k1, List.nil_append, hl, m1]

/-! ### Numbers with a radix prefix -/

theorem hexVal_iff {v : Nat} (h : hexVal c = some v) : (48 ≤ code c ∧ code c ≤ 57 ∧ (v : Int) = code c - 48) ∨
    (65 ≤ code c ∧ code c ≤ 70 ∧ (v : Int) = code c - 55) ∨ (97 ≤ code c ∧ code c ≤ 102 ∧ (v : Int) = code c - 87) := by
  have := c.toNat_lt
  unfold code
  by_cases h1 : 65 ≤ c.toNat ∧ c.toNat ≤ 70
  · rw [hexVal, if_pos h1] at h
    simp only [Option.some.injEq] at h; omega
  · rw [hexVal, if_neg h1] at h
    by_cases h2 : 48 ≤ c.toNat ∧ c.toNat ≤ 57
    · rw [show digitVal c = some (c.toNat - 48) by rw [digitVal, if_pos h2]] at h
      rw [if_neg (by simp only [Option.getD_some]; omega)] at h
      simp only [Option.some.injEq] at h; omega
    · by_cases h3 : 97 ≤ c.toNat ∧ c.toNat ≤ 122
      · rw [show digitVal c = some (c.toNat - 87) by rw [digitVal, if_neg h2, if_pos h3]] at h
        simp only [Option.getD_some] at h
        split at h
        · cases h
        · simp only [Option.some.injEq] at h; omega
      · rw [show digitVal c = none by rw [digitVal, if_neg h2, if_neg h3]] at h
        simp at h

theorem readRadix_ok {base : Nat} (hbase : base = 2 ∨ base = 8) : ∀ (ds : List Byte) {fuel n A B : Nat} {s w clear},
    (∀ c ∈ ds, ∃ v, hexVal c = some v ∧ v < base) → ds.length < fuel → Ends rest →
    ds.foldl (fun a c => a * base + (hexVal c).getD 0) n ≤ maxLiteral → RoomFor E s A B → ds.length ≤ B →
    Reading E s w H (ds ++ rest) clear →
    ∃ s' w', readRadix E.k base fuel s w (next (ds ++ rest)) n =
        ok (((ds.foldl (fun a c => a * base + (hexVal c).getD 0) n : Nat) : Int), s', w') ∧
      Run E s H s' w' H rest false 0 ds.length 0
  | [], fuel, n, A, B, s, w, clear, hd, hf, he, hv, hr, hB, h => by
    obtain ⟨fuel, rfl⟩ : ∃ f, fuel = f + 1 := ⟨fuel - 1, by simp at hf; omega⟩
    refine ⟨s, w, ?_, h.weaken.run⟩
    have hc := ends_cases he
    simp only [List.nil_append, List.foldl_nil]
    simp only [readRadix]
    rw [if_neg (by omega)]
  | d :: ds, fuel, n, A, B, s, w, clear, hd, hf, he, hv, hr, hB, h => by
    simp only [List.length_cons] at hf hB
    simp only [List.foldl_cons] at hv ⊢
    obtain ⟨fuel, rfl⟩ : ∃ f, fuel = f + 1 := ⟨fuel - 1, by omega⟩
    have hle : n * base + (hexVal d).getD 0 ≤ maxLiteral :=
      Nat.le_trans (numFold_le base (by omega) (fun c => (hexVal c).getD 0) ds (n * base + (hexVal d).getD 0)) hv
    unfold maxLiteral at hle
    obtain ⟨v, hv1, hv2⟩ := hd d (List.mem_cons_self ..)
    have hdig : 48 ≤ code d ∧ code d < 48 + base ∧ (v : Int) = code d - 48 := by
      have := hexVal_iff hv1; omega
    rw [hv1] at hle
    simp only [Option.getD_some] at hle
    obtain ⟨s1, w1, r1, r2⟩ := Reading.read (c := d) (bs := ds ++ rest) h hr (by omega)
    obtain ⟨w2, p1, p2⟩ := r2.rd.peek'
    have R : Run E s H s1 w2 H (ds ++ rest) false 0 1 0 := ⟨p2, r2.frame, r2.free, r2.grown, r2.length, r2.newer⟩
    obtain ⟨s2, w3, k1, k2⟩ := readRadix_ok hbase ds (fuel := fuel) (n := n * base + (hexVal d).getD 0) (A := A) (B := ds.length)
      (fun c' hc' => hd c' (List.mem_cons_of_mem _ hc')) (by omega) he hv (R.room hr (by omega) (by omega)) (Nat.le_refl _) p2
    refine ⟨s2, w3, ?_, (R.trans k2).weaken (by omega) (by simp; omega) (by omega)⟩
    rw [hv1] at k1
    simp only [Option.getD_some] at k1
    simp only [List.cons_append, next_cons]
    simp only [readRadix, if_pos (show 48 ≤ code d ∧ code d < 48 + (base : Int) from ⟨hdig.1, hdig.2.1⟩)]
    have hmul : ((n * base : Nat) : Int) = (n : Int) * base := Int.natCast_mul ..
    rw [ckLong_ok' (by rw [← hmul]; omega) (by rw [← hmul]; omega), ok_bind,
      ckLong_ok' (by rw [← hmul]; omega) (by rw [← hmul]; omega), ok_bind, ckLong_ok' (by rw [← hmul]; omega) (by rw [← hmul]; omega), ok_bind, r1]
    simp only [ok_bind, p1]
    rw [show (n : Int) * base + code d - 48 = ((n * base + v : Nat) : Int) by rw [Int.natCast_add, hmul]; omega, k1, hv1]
    rfl

theorem readHexDigits_ok : ∀ (ds : List Byte) {fuel n A B : Nat} {s w clear},
    (∀ c ∈ ds, ∃ v, hexVal c = some v ∧ v < 16) → ds.length < fuel → Ends rest →
    ds.foldl (fun a c => a * 16 + (hexVal c).getD 0) n ≤ maxLiteral → RoomFor E s A B → ds.length ≤ B →
    Reading E s w H (ds ++ rest) clear →
    ∃ s' w', readHexDigits E.k fuel s w (next (ds ++ rest)) n =
        ok (((ds.foldl (fun a c => a * 16 + (hexVal c).getD 0) n : Nat) : Int), s', w') ∧
      Run E s H s' w' H rest false 0 ds.length 0
  | [], fuel, n, A, B, s, w, clear, hd, hf, he, hv, hr, hB, h => by
    obtain ⟨fuel, rfl⟩ : ∃ f, fuel = f + 1 := ⟨fuel - 1, by simp at hf; omega⟩
    refine ⟨s, w, ?_, h.weaken.run⟩
    have hc := ends_cases he
    simp only [List.nil_append, List.foldl_nil]
    simp only [readHexDigits]
    rw [if_neg (by omega)]
  | d :: ds, fuel, n, A, B, s, w, clear, hd, hf, he, hv, hr, hB, h => by
    simp only [List.length_cons] at hf hB
    simp only [List.foldl_cons] at hv ⊢
    obtain ⟨fuel, rfl⟩ : ∃ f, fuel = f + 1 := ⟨fuel - 1, by omega⟩
    have hle : n * 16 + (hexVal d).getD 0 ≤ maxLiteral :=
      Nat.le_trans (numFold_le 16 (by omega) (fun c => (hexVal c).getD 0) ds (n * 16 + (hexVal d).getD 0)) hv
    unfold maxLiteral at hle
    obtain ⟨v, hv1, hv2⟩ := hd d (List.mem_cons_self ..)
    have hdig := hexVal_iff hv1
    rw [hv1] at hle
    simp only [Option.getD_some] at hle
    obtain ⟨s1, w1, r1, r2⟩ := Reading.read (c := d) (bs := ds ++ rest) h hr (by omega)
    obtain ⟨w2, p1, p2⟩ := r2.rd.peek'
    have R : Run E s H s1 w2 H (ds ++ rest) false 0 1 0 := ⟨p2, r2.frame, r2.free, r2.grown, r2.length, r2.newer⟩
    obtain ⟨s2, w3, k1, k2⟩ := readHexDigits_ok ds (fuel := fuel) (n := n * 16 + (hexVal d).getD 0) (A := A) (B := ds.length)
      (fun c' hc' => hd c' (List.mem_cons_of_mem _ hc')) (by omega) he hv (R.room hr (by omega) (by omega)) (Nat.le_refl _) p2
    refine ⟨s2, w3, ?_, (R.trans k2).weaken (by omega) (by simp; omega) (by omega)⟩
    rw [hv1] at k1
    simp only [Option.getD_some] at k1
    simp only [List.cons_append, next_cons]
    simp only [readHexDigits]
    rw [if_pos (by omega), ckLong_ok' (by omega) (by omega), ok_bind, ckLong_ok' (by omega) (by omega), ok_bind]
    have fin : ∀ x : Int, x = ((n * 16 + v : Nat) : Int) → (do
        let n ← ckLong x
        let __x ← readchar s w E.k
        let __x ← peekchar __x.2.fst __x.2.snd E.k
        readHexDigits E.k fuel __x.2.fst __x.2.snd __x.fst n) =
        ok (((ds.foldl (fun a c => a * 16 + (hexVal c).getD 0) (n * 16 + (hexVal d).getD 0) : Nat) : Int), s2, w3) := by
      rintro x rfl
      rw [ckLong_ok' (by omega) (by omega), ok_bind, r1]
      simp only [ok_bind, p1, k1, hv1]
      rfl
    split
    · exact fin _ (by omega)
    · split
      · exact fin _ (by omega)
      · exact fin _ (by omega)

theorem readSign_ok {ds : List Byte} (neg : Bool) (hds : ds ≠ []) (hd : ∀ c ∈ ds, ∃ v, hexVal c = some v) (hr : RoomFor E s A B) (hB : 1 ≤ B)
    (h : Reading E s w H ((if neg then [45] else []) ++ ds ++ rest) clear) :
    ∃ s' w', readSign E.k s w = ok (neg, next (ds ++ rest), s', w') ∧ Run E s H s' w' H (ds ++ rest) false 0 1 0 := by
  cases neg with
  | true =>
    have h : Reading E s w H (45 :: (ds ++ rest)) clear := h
    obtain ⟨w1, p1, p2⟩ := h.peek
    obtain ⟨s2, w2, r1, r2⟩ := p2.read hr hB
    obtain ⟨w3, q1, q2⟩ := r2.rd.peek'
    refine ⟨s2, w3, ?_, ⟨q2, r2.frame, r2.free, r2.grown, r2.length, r2.newer⟩⟩
    have : code 45 = 45 := rfl
    simp only [readSign, p1, ok_bind, this, if_true, r1, q1]
  | false =>
    have h : Reading E s w H (ds ++ rest) clear := h
    obtain ⟨w1, p1, p2⟩ := h.peek'
    refine ⟨s, w1, ?_, p2.run.weaken (by omega) (by omega) (by omega)⟩
    obtain ⟨d, ds', rfl⟩ := List.exists_cons_of_ne_nil hds
    obtain ⟨v, hv⟩ := hd d (List.mem_cons_self ..)
    have := hexVal_iff hv
    simp only [List.cons_append, next_cons] at p1 ⊢
    simp only [readSign, p1, ok_bind, if_neg (show ¬ code d = 45 by omega)]

theorem readBinaryOctal_ok {base : Nat} (hbase : base = 2 ∨ base = 8) {ds : List Byte} (neg : Bool) (hds : ds ≠ [])
    (hd : ∀ c ∈ ds, ∃ v, hexVal c = some v ∧ v < base) (hv : radixVal base ds ≤ maxLiteral) (he : Ends rest) (hf : ds.length < fuel)
    (hr : RoomFor E s A B) (hA : 1 ≤ A) (hB : ds.length + 1 ≤ B)
    (h : Reading E s w H ((if neg then [45] else []) ++ ds ++ rest) clear) :
    ∃ x s' w', readBinaryOctal E.k fuel base s w = ok (x, s', w') ∧ IsNum s' x (if neg then -(radixVal base ds) else radixVal base ds) ∧
      (s.free ≤ x ∧ (s'.cell x).car = 0) ∧ Run E s H s' w' H rest false 1 (ds.length + 1) 0 := by
  obtain ⟨s1, w1, r1, r2⟩ := readSign_ok neg hds (fun c hc => (hd c hc).imp fun v h => h.1) hr (by omega) h
  obtain ⟨s2, w2, k1, k2⟩ := readRadix_ok hbase ds (fuel := fuel) (n := 0) (A := A) (B := ds.length) hd hf he hv
    (r2.room hr (by omega) (by omega)) (Nat.le_refl _) r2.rd
  have R := r2.trans k2
  obtain ⟨s3, m1, m2, m0, m3⟩ := makeNumber_run k2.rd (R.room hr (A₂ := 1) (B₂ := 0) (by omega) (by omega)) (Nat.le_refl _)
    (if neg then 0 - (radixVal base ds : Int) else radixVal base ds)
  refine ⟨_, s3, w2, ?_, by cases neg <;> simpa using m2, ⟨R.frame.le, m0⟩, (R.trans m3).weaken (by omega) (by omega) (by omega)⟩
  rw [show radixVal base ds = ds.foldl (fun a c => a * base + (hexVal c).getD 0) 0 from rfl] at m1
  simp only [Int.natCast_zero] at k1
  simp only [readBinaryOctal, r1, ok_bind, k1, m1]

theorem readHex_ok {ds : List Byte} (neg : Bool) (hds : ds ≠ [])
    (hd : ∀ c ∈ ds, ∃ v, hexVal c = some v ∧ v < 16) (hv : radixVal 16 ds ≤ maxLiteral) (he : Ends rest) (hf : ds.length < fuel)
    (hr : RoomFor E s A B) (hA : 1 ≤ A) (hB : ds.length + 1 ≤ B)
    (h : Reading E s w H ((if neg then [45] else []) ++ ds ++ rest) clear) :
    ∃ x s' w', readHex E.k fuel s w = ok (x, s', w') ∧ IsNum s' x (if neg then -(radixVal 16 ds) else radixVal 16 ds) ∧
      (s.free ≤ x ∧ (s'.cell x).car = 0) ∧ Run E s H s' w' H rest false 1 (ds.length + 1) 0 := by
  obtain ⟨s1, w1, r1, r2⟩ := readSign_ok neg hds (fun c hc => (hd c hc).imp fun v h => h.1) hr (by omega) h
  obtain ⟨s2, w2, k1, k2⟩ := readHexDigits_ok ds (fuel := fuel) (n := 0) (A := A) (B := ds.length) hd hf he hv
    (r2.room hr (by omega) (by omega)) (Nat.le_refl _) r2.rd
  have R := r2.trans k2
  obtain ⟨s3, m1, m2, m0, m3⟩ := makeNumber_run k2.rd (R.room hr (A₂ := 1) (B₂ := 0) (by omega) (by omega)) (Nat.le_refl _)
    (if neg then 0 - (radixVal 16 ds : Int) else radixVal 16 ds)
  refine ⟨_, s3, w2, ?_, by cases neg <;> simpa using m2, ⟨R.frame.le, m0⟩, (R.trans m3).weaken (by omega) (by omega) (by omega)⟩
  rw [show radixVal 16 ds = ds.foldl (fun a c => a * 16 + (hexVal c).getD 0) 0 from rfl] at m1
  simp only [Int.natCast_zero] at k1
  simp only [readHex, r1, ok_bind, k1, m1]

/-! ### Keywords -/

theorem readKeyword_ok {name : List Byte} (hw : WordText E.mx name) (hn : NotNumeric name) (he : Ends rest)
    (hmsg : keywordMessage.length ≤ E.mx) (hf : name.length < fuel) (hk : H.length < E.k) (hr : RoomFor E s A B) (hA : name.length / 8 + 22 ≤ A)
    (hB : name.length + 2 ≤ B) (h : Reading E s w H (name ++ rest) clear) :
    ∃ x s' w' H', readKeyword E.k fuel s w = ok (x, s', w') ∧ HasText s' x name ∧ (s'.cell x).tag = .keyword ∧
      Run E s H s' w' H' rest false (name.length / 8 + 22) (name.length + 2) 1 := by
  obtain ⟨s1, w1, r1, r2, r3⟩ := h.take hr (by omega)
  obtain ⟨x, s2, w2, H2, k1, k2, k3, k4, k5⟩ := readIdent_word hw hn he hf hk (r3.room hr (A₂ := name.length / 8 + 11) (B₂ := name.length + 1)
    (by omega) (by omega)) (Nat.le_refl _) (Nat.le_refl _) r2.rd
  have R2 := r3.trans k2
  have hml : keywordMessage.length = 45 := rfl
  have hmx := k2.rd.mx
  obtain ⟨s3, m1, m2, m3, m4⟩ := makeString_ok (s := s2) (bs := keywordMessage) (by omega)
    ((R2.room hr (A₂ := 10) (B₂ := 0) (by omega) (by omega)).cells (by rw [hml]; decide))
  have R3 := R2.trans (k2.rd.alloc (A := 10) m3 (by rw [hml] at m4; exact m4))
  have hx3 := k3.ext m3
  have ht3 : (s3.cell x).tag = (s2.cell x).tag := by rw [m3.same _ k3.valid.2 id]
  have r4 := R3.room hr (A₂ := 1) (B₂ := 0) (by omega) (by omega)
  have x4 := push_ext s3 { tag := .keyword, car := (s3.cell x).car, cdr := (s3.cell x).cdr }
  have R4 := R3.trans (R3.rd.alloc (A := 1) x4 (by simp))
  refine ⟨s3.free, _, w2, H2, ?_, ?_, by simp, R4.weaken (by omega) (by omega) (by omega)⟩
  · have nt : ¬ (s3.cell x).tag = .number := by rw [ht3]; rcases k4 with h | h <;> simp [h]
    simp only [readKeyword, r1, ok_bind, k1, m1, St.tag_ok hx3.valid, if_neg nt, symbolToKeyword, St.rd_ok hx3.valid, makeCell_ok (r4.cells (k := 1) (by omega))]
  · have hb := x4.same _ hx3.bvalid.2 id
    refine ⟨(r4.cells (k := 1) (by omega)).free_valid _, by simp [hx3.length], ?_, ?_, ?_⟩
    · simp only [St.push_cell_free]; exact x4.valid hx3.bvalid
    · simp only [St.push_cell_free]; rw [hb]; exact hx3.btag
    · simp only [St.push_cell_free]; rw [hb]; exact hx3.bytes

end Mes
