import Verif.Proof.Reading
namespace Mes
open Res Spec

variable {E : Env} {s s' s'' : St} {w w' w'' : In} {H H' H'' : List (List Byte × Int)} {bs bs' rest : List Byte} {c : Byte}
  {clear clear' : Bool} {A B A' B' l l' fuel : Nat} {P : Int → Prop}

/-! ### Characters -/

theorem byte_lit (c : Byte) (n : Nat) : c = (no_index (OfNat.ofNat n)) ↔ c.toNat = n % 256 := by
  constructor
  · rintro rfl
    exact UInt8.toNat_ofNat' ..
  · intro h
    apply UInt8.toNat_inj.1
    rw [h]
    exact (UInt8.toNat_ofNat' ..).symm

theorem code_lit (c : Byte) (n : Int) : code c = n ↔ (c.toNat : Int) = n := Iff.rfl

theorem isDelimiter_iff (c : Byte) : IsDelimiter c ↔ endOfWordP (code c) = true := by
  have h0 := code_nonneg c
  unfold IsDelimiter endOfWordP C.isspace eof
  simp only [Bool.or_eq_true, decide_eq_true_eq, byte_lit, code_lit]
  omega

theorem not_end (h : ¬ IsDelimiter c) : endOfWordP (code c) = false := by
  rw [isDelimiter_iff] at h; simpa using h

theorem end_of_ends (h : Ends rest) : endOfWordP (next rest) = true := by
  cases rest with
  | nil => decide
  | cons c r => exact (isDelimiter_iff c).1 h

theorem isDec_iff (c : Byte) : IsDec c ↔ C.isdigit (code c) = true := by
  have := c.toNat_lt
  unfold IsDec IsDigit digitVal C.isdigit code
  simp only [Bool.and_eq_true, decide_eq_true_eq]
  constructor
  · rintro ⟨v, h1, h2⟩
    split at h1
    · omega
    · split at h1
      · simp only [Option.some.injEq] at h1; omega
      · cases h1
  · intro h
    exact ⟨c.toNat - 48, by rw [if_pos (by omega)], by omega⟩

theorem isDec_val (h : IsDec c) : ((digitVal c).getD 0 : Int) = code c - 48 ∧ (digitVal c).getD 0 < 10 ∧ 48 ≤ code c ∧ code c ≤ 57 := by
  have h' := (isDec_iff c).1 h
  unfold C.isdigit code at h'
  simp only [Bool.and_eq_true, decide_eq_true_eq] at h'
  unfold digitVal code
  rw [if_pos (by omega)]
  simp only [Option.getD_some]
  omega

theorem isDec_not_delimiter (h : IsDec c) : ¬ IsDelimiter c := by
  have := (isDec_val h)
  rw [isDelimiter_iff]
  unfold endOfWordP C.isspace eof
  simp only [Bool.or_eq_true, decide_eq_true_eq]
  omega

/-- The next character is not a digit. -/
theorem ends_not_digit (h : Ends rest) : C.isdigit (next rest) = false := by
  cases rest with
  | nil => decide
  | cons c r =>
    simp only [next]
    rw [Bool.eq_false_iff]
    intro h'
    exact isDec_not_delimiter ((isDec_iff c).2 h') h

theorem toByte_code' (c : Byte) : toByte (code c) = c := toByte_code c

/-! ### Pushing back what was read -/

/-- The text in front of which the reader is, when the next character has been taken already. -/
structure Taken (E : Env) (s : St) (w : In) (H : List (List Byte × Int)) (bs : List Byte) : Prop where
  rd : Reading E s w H (bs.drop 1) (decide (bs ≠ []))
  fits : ∀ c r, bs = c :: r → E.p ≠ 0 → c.toNat < 128 ∧ r.length < E.m

theorem Spec.Reading.take (h : Reading E s w H bs clear) (hr : RoomFor E s A B) (hB : 1 ≤ B) :
    ∃ s' w', readchar s w E.k = ok (next bs, s', w') ∧ Taken E s' w' H bs ∧
      Run E s H s' w' H (bs.drop 1) (decide (bs ≠ [])) 0 1 0 := by
  cases bs with
  | nil =>
    have hw : Reading E s w H [] false := h.weaken
    exact ⟨s, w, readchar_eof h.input, ⟨by simpa using hw, by simp⟩,
      by simpa using hw.run.weaken (Nat.le_refl _) (by omega) (Nat.le_refl _)⟩
  | cons c bs =>
    obtain ⟨s', w', h1, h2⟩ := h.read hr hB
    refine ⟨s', w', h1, ⟨by simpa using h2.rd, ?_⟩, by simpa using h2⟩
    intro c' r e hp
    obtain ⟨rfl, rfl⟩ := List.cons.inj e
    exact h.input.fits hp

theorem Taken.unread (h : Taken E s w H bs) (hr : RoomFor E s A B) (hB : 1 ≤ B) :
    ∃ s' w', unreadchar s w E.k (next bs) = ok (next bs, s', w') ∧ Run E s H s' w' H bs false 0 1 0 := by
  cases bs with
  | nil =>
    have hw : Reading E s w H [] false := by simpa using h.rd
    exact ⟨s, w, unreadchar_eof, by simpa using hw.run.weaken (Nat.le_refl _) (by omega) (Nat.le_refl _)⟩
  | cons c bs =>
    have hr' : Reading E s w H bs true := by simpa using h.rd
    exact hr'.unread hr hB (fun hp => h.fits c bs rfl hp)

/-! ### Digits and words -/

theorem numFold_le (b : Nat) (hb : 1 ≤ b) (f : Byte → Nat) (ds : List Byte) : ∀ n : Nat,
    n ≤ ds.foldl (fun a c => a * b + f c) n := by
  induction ds with
  | nil => intro n; exact Nat.le_refl _
  | cons d ds ih =>
    intro n
    refine Nat.le_trans ?_ (ih (n * b + f d))
    have : n * 1 ≤ n * b := Nat.mul_le_mul_left n hb
    omega

theorem ckLong_ok' {x : Int} (h1 : -9223372036854775808 ≤ x) (h2 : x ≤ 9223372036854775807) : ckLong x = ok x :=
  ckLong_ok (by unfold InLong; omega)

theorem readDigits_ok : ∀ (ds : List Byte) {fuel n A B : Nat} {buf : List Byte} {s w clear}, ds ≠ [] → (∀ c ∈ ds, IsDec c) →
    ds.length < fuel → C.isdigit (next rest) = false → buf.length + ds.length ≤ s.maxString →
    ds.foldl (fun a c => a * 10 + (digitVal c).getD 0) n ≤ maxLiteral → RoomFor E s A B → ds.length ≤ B →
    Reading E s w H ((ds ++ rest).drop 1) clear →
    ∃ s' w', readDigits E.k fuel s w (next (ds ++ rest)) n buf =
        ok (((ds.foldl (fun a c => a * 10 + (digitVal c).getD 0) n : Nat) : Int), buf ++ ds, next rest, s', w') ∧
      Taken E s' w' H rest ∧ Run E s H s' w' H (rest.drop 1) (decide (rest ≠ [])) 0 ds.length 0
  | [], _, _, _, _, _, _, _, _, h, _, _, _, _, _, _, _, _ => absurd rfl h
  | d :: ds, fuel, n, A, B, buf, s, w, clear, _, hd, hf, hnd, hm, hv, hr, hB, h => by
    simp only [List.length_cons] at hf hm hB
    obtain ⟨fuel, rfl⟩ : ∃ f, fuel = f + 1 := ⟨fuel - 1, by omega⟩
    have hdd := isDec_val (hd d (List.mem_cons_self ..))
    simp only [List.foldl_cons] at hv ⊢
    have hle : n * 10 + (digitVal d).getD 0 ≤ maxLiteral :=
      Nat.le_trans (numFold_le 10 (by omega) (fun c => (digitVal c).getD 0) ds (n * 10 + (digitVal d).getD 0)) hv
    unfold maxLiteral at hle
    obtain ⟨s1, w1, h1, h2, h3⟩ := Reading.take (bs := ds ++ rest) (by simpa using h) hr (by omega)
    have hdig : C.isdigit (code d) = true := (isDec_iff d).1 (hd d (List.mem_cons_self ..))
    have hstep : readDigits E.k (fuel + 1) s w (next (d :: ds ++ rest)) n buf =
        readDigits E.k fuel s1 w1 (next (ds ++ rest)) ((n * 10 + (digitVal d).getD 0 : Nat) : Int) (buf ++ [d]) := by
      simp only [List.cons_append, next_cons, readDigits, hdig, if_true]
      rw [ubUnless_true (by omega), ok_bind, ckLong_ok' (by omega) (by omega), ok_bind, ckLong_ok' (by omega) (by omega), ok_bind,
        ckLong_ok' (by omega) (by omega), ok_bind]
      simp only [toByte_code]
      rw [h1]
      simp only [ok_bind]
      congr 1
      omega
    rw [hstep]
    cases hds : ds with
    | nil =>
      subst hds
      obtain ⟨fuel, rfl⟩ : ∃ f, fuel = f + 1 := ⟨fuel - 1, by simp at hf; omega⟩
      refine ⟨s1, w1, ?_, by simpa using h2, by simpa using h3⟩
      simp only [List.nil_append, readDigits, hnd, List.foldl_nil, Bool.false_eq_true, if_false]
    | cons d' ds' =>
      rw [← hds]
      obtain ⟨s2, w2, k1, k2, k3⟩ := readDigits_ok ds (fuel := fuel) (n := n * 10 + (digitVal d).getD 0) (buf := buf ++ [d])
        (s := s1) (w := w1) (by simp [hds]) (fun c hc => hd c (List.mem_cons_of_mem _ hc)) (by omega) hnd
        (by rw [h3.frame.maxString]; simp; omega) hv (h3.room hr (A₂ := A) (B₂ := ds.length) (by omega) (by omega)) (Nat.le_refl _) h2.rd
      refine ⟨s2, w2, by rw [k1]; simp, k2, (h3.trans k3).weaken (by omega) (by simp; omega) (by omega)⟩

theorem readDigits_none {c n : Int} {buf : List Byte} (h : C.isdigit c = false) :
    readDigits E.k (fuel + 1) s w c n buf = ok (n, buf, c, s, w) := by simp [readDigits, h]

theorem readWord_ok : ∀ (cs : List Byte) {fuel A B : Nat} {buf : List Byte} {s w clear}, cs ≠ [] → (∀ c ∈ cs, ¬ IsDelimiter c) →
    cs.length < fuel → Ends rest → buf.length + cs.length ≤ s.maxString → RoomFor E s A B → cs.length ≤ B →
    Reading E s w H ((cs ++ rest).drop 1) clear →
    ∃ s' w', readWord E.k fuel s w (next (cs ++ rest)) buf = ok (buf ++ cs, next rest, s', w') ∧
      Taken E s' w' H rest ∧ Run E s H s' w' H (rest.drop 1) (decide (rest ≠ [])) 0 cs.length 0
  | [], _, _, _, _, _, _, _, h, _, _, _, _, _, _, _ => absurd rfl h
  | d :: cs, fuel, A, B, buf, s, w, clear, _, hd, hf, hnd, hm, hr, hB, h => by
    simp only [List.length_cons] at hf hm hB
    obtain ⟨fuel, rfl⟩ : ∃ f, fuel = f + 1 := ⟨fuel - 1, by omega⟩
    obtain ⟨s1, w1, h1, h2, h3⟩ := Reading.take (bs := cs ++ rest) (by simpa using h) hr (by omega)
    have hstep : readWord E.k (fuel + 1) s w (next (d :: cs ++ rest)) buf =
        readWord E.k fuel s1 w1 (next (cs ++ rest)) (buf ++ [d]) := by
      simp only [List.cons_append, next_cons, readWord, not_end (hd d (List.mem_cons_self ..)), Bool.false_eq_true, if_false]
      rw [ubUnless_true (by omega), ok_bind]
      simp only [toByte_code]
      rw [h1]
      simp only [ok_bind]
    rw [hstep]
    cases hcs : cs with
    | nil =>
      subst hcs
      obtain ⟨fuel, rfl⟩ : ∃ f, fuel = f + 1 := ⟨fuel - 1, by simp at hf; omega⟩
      refine ⟨s1, w1, ?_, by simpa using h2, by simpa using h3⟩
      simp only [List.nil_append, readWord, end_of_ends hnd, if_true]
    | cons d' cs' =>
      rw [← hcs]
      obtain ⟨s2, w2, k1, k2, k3⟩ := readWord_ok cs (fuel := fuel) (buf := buf ++ [d])
        (s := s1) (w := w1) (by simp [hcs]) (fun c hc => hd c (List.mem_cons_of_mem _ hc)) (by omega) hnd
        (by rw [h3.frame.maxString]; simp; omega) (h3.room hr (A₂ := A) (B₂ := cs.length) (by omega) (by omega)) (Nat.le_refl _) h2.rd
      refine ⟨s2, w2, by rw [k1]; simp, k2, (h3.trans k3).weaken (by omega) (by simp; omega) (by omega)⟩

/-! ### Numbers and identifiers -/

theorem takeWhile_all {p : Byte → Bool} {l : List Byte} (h : ∀ x ∈ l, p x) : l.takeWhile p = l := by
  induction l with
  | nil => rfl
  | cons x l ih =>
    rw [List.takeWhile_cons, if_pos (h x (by simp)), ih (fun y hy => h y (by simp [hy]))]

/-- A number in decimal digits, when the sign has been dealt with. -/
theorem readNumber_end {ds : List Byte} {n : Int} (h : Taken E s w H rest) (he : Ends rest) (hr : RoomFor E s A B) (hA : 1 ≤ A)
    (hB : 1 ≤ B) : ∃ x s1 w1 s', unreadchar s w E.k (next rest) = ok (next rest, s1, w1) ∧
      makeNumber s1 n = ok (x, s') ∧ IsNum s' x n ∧ (s.free ≤ x ∧ (s'.cell x).car = 0) ∧ Run E s H s' w1 H rest false 1 1 0 := by
  obtain ⟨s1, w1, h1, h2⟩ := h.unread hr hB
  have r1 := h2.room hr (A₂ := 1) (B₂ := 0) (by omega) (by omega)
  have x1 := push_ext s1 { tag := .number, car := 0, cdr := n }
  refine ⟨_, s1, w1, _, h1, makeNumber_ok (r1.cells (by omega)) n, (r1.cells (k := 1) (by omega)).push_isNum n, ⟨h2.frame.le, by simp⟩,
    (h2.trans (h2.rd.alloc (A := 1) x1 (by simp))).weaken (by omega) (by omega) (by omega)⟩

theorem readIdent_num {ds : List Byte} (sign : Option Bool) (hds : ds ≠ []) (hd : ∀ c ∈ ds, IsDec c) (hl : ds.length ≤ s.maxString)
    (hv : numVal 10 ds ≤ maxLiteral) (he : Ends rest) (hf : ds.length < fuel) (hr : RoomFor E s A B) (hA : 1 ≤ A)
    (hB : ds.length + 2 ≤ B) {t : List Byte} (ht : t = (match sign with | none => [] | some true => [45] | some false => [43]) ++ ds)
    (h : Reading E s w H ((t ++ rest).drop 1) clear) :
    ∃ x s' w', readIdentifierOrNumber E.k fuel s w (next (t ++ rest)) = ok (x, s', w') ∧
      IsNum s' x (if sign = some true then -(numVal 10 ds) else numVal 10 ds) ∧ (s.free ≤ x ∧ (s'.cell x).car = 0) ∧
      Run E s H s' w' H rest false 1 (ds.length + 2) 0 := by
  have hend := end_of_ends he
  have hnd := ends_not_digit he
  obtain ⟨d, ds', rfl⟩ := List.exists_cons_of_ne_nil hds
  have hdd := isDec_val (hd d (List.mem_cons_self ..))
  have hdig : C.isdigit (code d) = true := (isDec_iff d).1 (hd d (List.mem_cons_self ..))
  match sign with
  | none =>
    simp only [List.nil_append] at ht
    subst ht
    obtain ⟨s1, w1, h1, h2, h3⟩ := readDigits_ok (n := 0) (buf := []) (d :: ds') hds hd hf hnd (by simpa using hl) hv hr (by omega) h
    obtain ⟨x, s2, w2, s3, k1, k2, k3, k4, k5⟩ := readNumber_end (ds := d :: ds') (n := numVal 10 (d :: ds')) h2 he
      (h3.room hr (A₂ := 1) (B₂ := 1) (by omega) (by omega)) (by omega) (by omega)
    refine ⟨x, s3, w2, ?_, by simpa using k3, ⟨Int.le_trans h3.frame.le k4.1, k4.2⟩, (h3.trans k5).weaken (by omega) (by omega) (by omega)⟩
    simp only [List.cons_append, next_cons] at h1 ⊢
    simp only [Int.natCast_zero] at h1
    simp only [readIdentifierOrNumber, readPlus, readMinus, if_neg (show ¬ code d = 43 by omega),
      if_neg (show ¬ code d = 45 by omega), ok_bind, h1, hend, if_true, k1, Bool.false_eq_true, if_false]
    rw [show numVal 10 (d :: ds') = (d :: ds').foldl (fun a c => a * 10 + (digitVal c).getD 0) 0 from rfl] at k2
    rw [k2]
    rfl
  | some neg =>
    have ht' : t = (if neg then 45 else 43) :: d :: ds' := by subst ht; cases neg <;> rfl
    subst ht'
    simp only [List.cons_append, List.drop_succ_cons, List.drop_zero] at h
    obtain ⟨w0, p1, p2⟩ := h.peek
    obtain ⟨s1, w1, r1, r2⟩ := p2.read hr (by omega)
    obtain ⟨s2, w2, h1, h2, h3⟩ := readDigits_ok (n := 0) (buf := []) (rest := rest) (d :: ds') hds hd hf hnd
      (by rw [r2.frame.maxString]; simpa using hl) hv (r2.room hr (A₂ := 1) (B₂ := ds'.length + 2) (by omega) (by simp at hB; omega))
      (by simp) r2.rd
    obtain ⟨x, s3, w3, s4, k1, k2, k3, k4, k5⟩ := readNumber_end (ds := d :: ds')
      (n := if neg then 0 - (numVal 10 (d :: ds') : Int) else numVal 10 (d :: ds')) h2 he
      ((r2.trans h3).room hr (A₂ := 1) (B₂ := 1) (by omega) (by simp at hB ⊢; omega)) (by omega) (by omega)
    refine ⟨x, s4, w3, ?_, ?_, ⟨Int.le_trans (Int.le_trans r2.frame.le h3.frame.le) k4.1, k4.2⟩,
      ((r2.trans h3).trans k5).weaken (by omega) (by omega) (by omega)⟩
    · simp only [List.cons_append, next_cons] at h1 ⊢
      simp only [Int.natCast_zero] at h1
      rw [show numVal 10 (d :: ds') = (d :: ds').foldl (fun a c => a * 10 + (digitVal c).getD 0) 0 from rfl] at k2
      cases neg with
      | true =>
        have : code 45 = 45 := rfl
        simp only [this, if_true, readIdentifierOrNumber, readPlus, readMinus, if_neg (show ¬ (45 : Int) = 43 by omega), ok_bind, if_true,
          p1, hdig, r1, h1, hend, k1] at k2 ⊢
        rw [k2]
        rfl
      | false =>
        have : code 43 = 43 := rfl
        simp only [this, Bool.false_eq_true, if_false, readIdentifierOrNumber, readPlus, readMinus, ok_bind, if_true,
          p1, hdig, r1, if_neg (show ¬ code d = 45 by omega), h1, hend, k1, Bool.false_eq_true, if_false] at k2 ⊢
        rw [k2]
        rfl
    · cases neg <;> simpa using k3

theorem takeWhile_drop_digits (name : List Byte) : ∃ ds cs, name = ds ++ cs ∧ (∀ c ∈ ds, IsDec c) ∧
    (∀ c r, cs = c :: r → ¬ IsDec c) ∧ ds = name.takeWhile (fun b => decide (IsDec b)) := by
  refine ⟨name.takeWhile (fun b => decide (IsDec b)), name.dropWhile (fun b => decide (IsDec b)),
    (List.takeWhile_append_dropWhile ..).symm, fun c hc => ?_, fun c r e => ?_, rfl⟩
  · induction name with
    | nil => cases hc
    | cons x l ih =>
      rw [List.takeWhile_cons] at hc
      split at hc
      · rcases List.mem_cons.1 hc with rfl | hc
        · rename_i h; simpa using h
        · exact ih hc
      · cases hc
  · induction name with
    | nil => cases e
    | cons x l ih =>
      rw [List.dropWhile_cons] at e
      split at e
      · exact ih e
      · obtain ⟨rfl, rfl⟩ := List.cons.inj e
        rename_i h; simpa using h

theorem not_digit_of {l : List Byte} (h : ∀ c r, l = c :: r → ¬ IsDec c) (he : Ends rest) : C.isdigit (next (l ++ rest)) = false := by
  cases l with
  | nil => exact ends_not_digit he
  | cons c r =>
    rw [List.cons_append, next_cons, Bool.eq_false_iff]
    intro h'
    exact h c r rfl ((isDec_iff c).2 h')

/-- The end of `reader_read_identifier_or_number` for a name. -/
theorem readName_end {name : List Byte} (h : Taken E s w H rest) (hw : WordText E.mx name) (hk : H.length < E.k)
    (hr : RoomFor E s A B) (hA : name.length / 8 + 11 ≤ A) (hB : 1 ≤ B) :
    ∃ s1 w1 x s' H', unreadchar s w E.k (next rest) = ok (next rest, s1, w1) ∧ name.length < s1.maxString ∧
      cstringToSymbol s1 E.k (name.takeWhile (· ≠ 0)) = ok (x, s') ∧
      Run E s H s' w1 H' rest false (name.length / 8 + 11) 1 1 ∧
      HasText s' x name ∧ ((s'.cell x).tag = .symbol ∨ (s'.cell x).tag = .special) ∧ lookup name H' = some x := by
  obtain ⟨s1, w1, h1, h2⟩ := h.unread hr hB
  have hmx : name.length < s1.maxString := Nat.lt_of_lt_of_le hw.short h2.rd.mx
  obtain ⟨x, s2, H2, k1, k2, k3⟩ := h2.rd.intern (name := name) hw.hash (by omega) hk
    (h2.room hr (A₂ := name.length / 8 + 11) (B₂ := 0) (by omega) (by omega)) (Nat.le_refl _)
  refine ⟨s1, w1, x, s2, H2, h1, hmx, ?_, (h2.trans k2).weaken (by omega) (by omega) (by omega), k3⟩
  rw [takeWhile_all (fun c hc => by simpa using (hw.chars c hc).2)]
  exact k1

theorem readIdent_word {name : List Byte} (hw : WordText E.mx name) (hn : NotNumeric name) (he : Ends rest)
    (hf : name.length < fuel) (hk : H.length < E.k) (hr : RoomFor E s A B) (hA : name.length / 8 + 11 ≤ A)
    (hB : name.length + 1 ≤ B) (h : Reading E s w H ((name ++ rest).drop 1) clear) :
    ∃ x s' w' H', readIdentifierOrNumber E.k fuel s w (next (name ++ rest)) = ok (x, s', w') ∧
      Run E s H s' w' H' rest false (name.length / 8 + 11) (name.length + 1) 1 ∧
      HasText s' x name ∧ ((s'.cell x).tag = .symbol ∨ (s'.cell x).tag = .special) ∧ lookup name H' = some x := by
  obtain ⟨c, name', rfl⟩ := List.exists_cons_of_ne_nil hw.nonempty
  simp only [List.cons_append, List.drop_succ_cons, List.drop_zero] at h
  have hmx := h.mx
  have hshort := hw.short
  obtain ⟨fuel, rfl⟩ : ∃ f, fuel = f + 1 := ⟨fuel - 1, by omega⟩
  -- the signs
  have hsign : ∃ w1, readPlus E.k s w (code c) = ok (code c, s, w1) ∧ ∃ w2, readMinus E.k s w1 (code c) = ok (false, code c, s, w2) ∧
      Reading E s w2 H (name' ++ rest) false := by
    have hpk : (c = 43 ∨ c = 45) → C.isdigit (next (name' ++ rest)) = false := fun hc =>
      not_digit_of (fun d r e => hn.sign c d r (by rw [e]) hc) he
    obtain ⟨w1, p1, p2⟩ := h.peek'
    by_cases h1 : c = 43
    · subst h1
      have hc : code 43 = 43 := rfl
      refine ⟨w1, ?_, w1, ?_, p2⟩
      · simp only [readPlus, hc, if_true, p1, ok_bind, hpk (.inl rfl), Bool.false_eq_true, if_false]
      · simp [readMinus, hc]
    · have h1' : ¬ code c = 43 := by simp only [byte_lit] at h1; unfold code; omega
      by_cases h2 : c = 45
      · subst h2
        have hc : code 45 = 45 := rfl
        refine ⟨w, by simp [readPlus, hc], w1, ?_, p2⟩
        simp only [readMinus, hc, if_true, p1, ok_bind, hpk (.inr rfl), Bool.false_eq_true, if_false]
      · have h2' : ¬ code c = 45 := by simp only [byte_lit] at h2; unfold code; omega
        exact ⟨w, by simp [readPlus, h1'], w, by simp [readMinus, h2'], h.weaken⟩
  obtain ⟨w1, e1, w2, e2, hR⟩ := hsign
  have hdel : ∀ c' ∈ c :: name', ¬ IsDelimiter c' := fun c' hc' => (hw.chars c' hc').1
  obtain ⟨ds, cs, hsplit, hds, hcs, hdw⟩ := takeWhile_drop_digits (c :: name')
  have hcsne : cs ≠ [] := by
    rintro rfl
    obtain ⟨b, hb, hnb⟩ := hn.nondigit
    rw [hsplit, List.append_nil] at hb
    exact hnb (hds b hb)
  obtain ⟨c2, cs', rfl⟩ := List.exists_cons_of_ne_nil hcsne
  have hlen : (c :: name').length = ds.length + (c2 :: cs').length := by rw [hsplit, List.length_append]
  have hdel2 : ∀ c' ∈ c2 :: cs', ¬ IsDelimiter c' := fun c' hc' => hdel c' (by rw [hsplit]; exact List.mem_append_right _ hc')
  -- after the digits
  have hdig : ∃ (n : Int) (s1 : St) (w3 : In), readDigits E.k (fuel + 1) s w2 (code c) 0 [] = ok (n, ds, code c2, s1, w3) ∧
      Run E s H s1 w3 H (cs' ++ rest) (decide (ds ≠ [])) 0 ds.length 0 := by
    cases hds' : ds with
    | nil =>
      subst hds'
      simp only [List.nil_append, List.cons.injEq] at hsplit
      obtain ⟨rfl, rfl⟩ := hsplit
      refine ⟨0, s, w2, readDigits_none ?_, hR.run⟩
      rw [Bool.eq_false_iff]
      intro h'
      exact hcs c name' rfl ((isDec_iff c).2 h')
    | cons d ds' =>
      rw [← hds']
      have hnd : C.isdigit (next (c2 :: cs' ++ rest)) = false := not_digit_of hcs he
      have htext : ds ++ (c2 :: cs' ++ rest) = c :: (name' ++ rest) := by
        rw [← List.append_assoc, ← hsplit]; rfl
      obtain ⟨s1, w3, k1, k2, k3⟩ := readDigits_ok (n := 0) (buf := []) (fuel := fuel + 1) (s := s) (w := w2) (E := E) (H := H)
        (clear := false) ds (by simp [hds']) hds (by omega) hnd
        (by simp only [List.length_nil]; omega) (by rw [hdw]; exact hn.lead) hr (by omega)
        (by rw [htext]; exact hR)
      rw [htext] at k1
      refine ⟨_, s1, w3, k1, ?_⟩
      have : decide (ds ≠ []) = decide (c2 :: cs' ++ rest ≠ []) := by simp [hds']
      rw [this]
      exact k3
  obtain ⟨n, s1, w3, d1, d2⟩ := hdig
  -- the rest of the word
  obtain ⟨s2, w4, r1, r2, r3⟩ := readWord_ok (buf := ds) (s := s1) (w := w3) (E := E) (H := H) (rest := rest) (fuel := fuel + 1) (c2 :: cs')
    (by simp) hdel2 (by omega) he (by rw [d2.frame.maxString]; omega)
    (d2.room hr (A₂ := name'.length / 8 + 11) (B₂ := (c2 :: cs').length) (by simp at hA; omega) (by omega)) (Nat.le_refl _) d2.rd
  have R2 := d2.trans r3
  obtain ⟨s3, w5, x, s4, H4, k1, k2, k3, k4, k5⟩ := readName_end r2 hw hk
    (R2.room hr (A₂ := (c :: name').length / 8 + 11) (B₂ := 1) (by omega) (by omega)) (Nat.le_refl _) (Nat.le_refl _)
  refine ⟨x, s4, w5, H4, ?_, (R2.trans k4).weaken (by omega) (by omega) (by omega), k5⟩
  rw [← hsplit] at r1
  simp only [List.cons_append, next_cons] at r1 ⊢
  simp only [readIdentifierOrNumber, e1, ok_bind, e2, d1, not_end (hdel2 c2 (by simp)), Bool.false_eq_true, if_false, r1, k1]
  rw [ubUnless_true k2]
  simp only [ok_bind, k3]

end Mes
