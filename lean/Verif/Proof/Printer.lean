import Verif.Spec.Writing
import Verif.Model.Display
import Verif.Proof.Text
import Verif.Proof.CNum
import Verif.Proof.Tree
/-
The printer writes a text of the datum.
-/
namespace Mes
open Res Spec

variable {s : St} {H : List (List Byte × Int)} {P : Int → Prop} {m : Nat}

theorem flatMap_plain {name : List Byte} (h : ∀ b ∈ name, ¬ IsDelimiter b ∧ b ≠ 0) (hp : Plain name) :
    name.flatMap fdwriteStringChar = name := by
  induction name with
  | nil => rfl
  | cons b bs ih =>
    rw [List.flatMap_cons, ih (fun b hb => h b (List.mem_cons_of_mem _ hb)) (fun b hb => hp b (List.mem_cons_of_mem _ hb))]
    obtain ⟨h1, h2⟩ := h b List.mem_cons_self
    obtain ⟨h3, h4, h5, h6⟩ := hp b List.mem_cons_self
    simp only [IsDelimiter, not_or] at h1
    unfold fdwriteStringChar
    simp only [h1, h2, h3, h4, h5, h6, if_false, List.cons_append, List.nil_append]

theorem fdwriteStringChar_cases (b : Byte) : (fdwriteStringChar b = [b] ∧ b ≠ 34 ∧ b ≠ 92) ∨
    ∃ e ∈ stringEscapes, e.2 = b ∧ fdwriteStringChar b = [92, e.1] := by
  by_cases h : ∃ e ∈ stringEscapes, e.2 = b
  · obtain ⟨e, he, rfl⟩ := h
    exact .inr ⟨e, he, rfl, (by decide : ∀ e ∈ stringEscapes, fdwriteStringChar e.2 = [92, e.1]) e he⟩
  · simp only [stringEscapes, List.mem_cons, List.not_mem_nil, or_false, not_exists, not_and] at h
    have h' : ∀ c x, ((c, x) : Byte × Byte) ∈ stringEscapes → ¬ b = x := fun c x hx e => h (c, x) (by simpa [stringEscapes] using hx) e.symm
    have h1 := h' 92 92 (by decide)
    have h2 := h' 34 34 (by decide)
    refine .inl ⟨?_, h2, h1⟩
    unfold fdwriteStringChar
    rw [if_neg (h' 48 0 (by decide)), if_neg (h' 97 7 (by decide)), if_neg (h' 98 8 (by decide)), if_neg (h' 116 9 (by decide)),
      if_neg (h' 118 11 (by decide)), if_neg (h' 110 10 (by decide)), if_neg (h' 102 12 (by decide)), if_neg (h' 114 13 (by decide)),
      if_neg (h' 101 27 (by decide)), if_neg h1, if_neg h2]

theorem stringBody_flatMap (bs : List Byte) : StringBody bs (bs.flatMap fdwriteStringChar) := by
  induction bs with
  | nil => exact .nil
  | cons b bs ih =>
    rw [List.flatMap_cons]
    rcases fdwriteStringChar_cases b with ⟨h, h1, h2⟩ | ⟨e, he, rfl, h⟩ <;> rw [h]
    · exact .plain h1 h2 ih
    · exact .escape (b := e.2) he ih

/-- `displayHelper` at an element of a vector: through a reference. -/
theorem displayHelper_target {p : Int} (hv : s.Valid p) {n : Nat} {t : List Byte}
    (h : ∀ fuel, n ≤ fuel → displayHelper s true fuel 5 (target s p) false = ok (t, 4)) :
    ∀ fuel, n + 1 ≤ fuel → displayHelper s true fuel 5 p false = ok (t, 4) := by
  intro fuel hf
  unfold target at h
  split at h
  · rename_i hr
    obtain ⟨fuel, rfl⟩ : ∃ f, fuel = f + 1 := ⟨fuel - 1, by omega⟩
    simp only [displayHelper, St.rd_ok hv, ok_bind, hr]
    rw [if_neg (by decide)]
    exact h fuel (by omega)
  · exact h fuel (by omega)

theorem Spec.Written.blank_tail {d : Datum} {r : List Byte} (h : Written m (.tail d) r) : Written m (.tail d) (32 :: r) := by
  cases h with
  | close h => exact .close (.white (by decide) h)
  | element h1 h2 hg h3 hs h4 => 
    have := Written.element (.white (b := 32) (by decide) h1) h2 hg h3 hs h4
    simpa using this
  | lastElement h1 h2 hg h3 hs h4 =>
    have := Written.lastElement (.white (b := 32) (by decide) h1) h2 hg h3 hs h4
    simpa using this

theorem foldl_pow (ds : List Byte) : ∀ a, a * 10 ^ ds.length ≤ ds.foldl (fun a c => a * 10 + (digitVal c).getD 0) a := by
  induction ds with
  | nil => intro a; simp
  | cons c ds ih =>
    intro a
    refine Nat.le_trans ?_ (ih _)
    rw [List.length_cons, Nat.pow_succ, Nat.mul_comm (10 ^ ds.length) 10, ← Nat.mul_assoc]
    exact Nat.mul_le_mul_right _ (Nat.le_add_right _ _)

/-- The integer is written as an optional sign and digits. -/
theorem writeInt_ok (hm : 45 ≤ m) {n : Int} (h : -2147483648 ≤ n ∧ n ≤ 2147483647) :
    ∃ t, writeInt n = ok t ∧ Written m (.datum (.num n) true) t := by
  have e : toInt32 n = n := by unfold toInt32; omega
  obtain ⟨t, h1, h2⟩ := C.ntoab_signed (w := 64) (base := 10) (x := n) (by decide) (by decide) (by omega) (.inr (by omega))
  refine ⟨t, by rw [writeInt, e]; exact h1, ?_⟩
  have key : ∀ ds, IsNumeral 10 n.natAbs ds → ds.length ≤ m := by
    intro ds hd
    match ds, hd with
    | [], hd => exact absurd rfl hd.nonempty
    | c :: ds, hd =>
      by_cases h0 : c = 48
      · have := hd.canonical (by rw [h0]; rfl)
        rw [this]; simp; omega
      · obtain ⟨v, hv, hlt⟩ := hd.digits c List.mem_cons_self
        have hv0 : 1 ≤ v := by
          unfold digitVal at hv
          split at hv
          · have := UInt8.toNat_inj (a := c) (b := 48)
            simp only [Option.some.injEq] at hv
            have h48 : (48 : UInt8).toNat = 48 := rfl
            rw [h48] at this
            have : c.toNat ≠ 48 := fun e => h0 (this.1 e)
            omega
          · split at hv
            · simp only [Option.some.injEq] at hv; omega
            · cases hv
        have hval := hd.value
        have hp := foldl_pow ds v
        rw [show numVal 10 (c :: ds) = ds.foldl (fun a c => a * 10 + (digitVal c).getD 0) (0 * 10 + (digitVal c).getD 0) from rfl,
          hv] at hval
        simp only [Nat.zero_mul, Nat.zero_add, Option.getD_some] at hval
        rw [hval] at hp
        have h1 : 10 ^ ds.length ≤ v * 10 ^ ds.length := Nat.le_mul_of_pos_left _ hv0
        rcases Nat.lt_or_ge ds.length 11 with hl | hl
        · simp only [List.length_cons]; omega
        · have := Nat.pow_le_pow_right (n := 10) (by decide) hl
          omega
  rcases h2 with ⟨h0, h2⟩ | ⟨h0, ds, rfl, h2⟩
  · have := Written.num (m := m) none h2.nonempty h2.digits (key _ h2) (by rw [h2.value]; simp only [maxLiteral]; omega)
    rw [h2.value, show (if none = some true then (-(n.natAbs : Int)) else n.natAbs) = n by simp; omega] at this
    exact this
  · have := Written.num (m := m) (some true) h2.nonempty h2.digits (key _ h2) (by rw [h2.value]; simp only [maxLiteral]; omega)
    rw [h2.value, show (if some true = some true then (-(n.natAbs : Int)) else n.natAbs) = n by simp; omega] at this
    exact this

/-- What the printer gives for a datum, and for the inside of a list. -/
def PrintOk (s : St) (m : Nat) (p : Int) (d : Datum) : Prop :=
  (∃ n t last, (∀ fuel, n ≤ fuel → displayHelper s true fuel 5 p false = ok (t, 4)) ∧ Written m (.datum d last) t) ∧
  ((s.cell p).tag = .pair → ∃ n t, (∀ fuel depth, n ≤ fuel → depth ≠ 0 → displayHelper s true fuel depth p true = ok (t, 4)) ∧
    Written m (.tail d) (t ++ [41]))

theorem PrintOk.atom {p : Int} {d : Datum} {last : Bool} {t : List Byte} (ht : (s.cell p).tag ≠ .pair)
    (h : ∀ fuel, displayHelper s true (fuel + 1) 5 p false = ok (t, 4)) (hw : Written m (.datum d last) t) : PrintOk s m p d :=
  ⟨⟨1, t, last, fun fuel hf => by
    obtain ⟨fuel, rfl⟩ : ∃ f, fuel = f + 1 := ⟨fuel - 1, by omega⟩
    exact h fuel, hw⟩, fun h => absurd h ht⟩

theorem fdwriteString_ok {p : Int} {bs : List Byte} (h : HasText s p bs) : fdwriteString s p = ok (bs.flatMap fdwriteStringChar) := by
  simp only [fdwriteString, textOf_ok h, ok_bind]

theorem PrintOk.named {p : Int} {d : Datum} {last : Bool} {name t : List Byte} (h : HasText s p name)
    (ht : (s.cell p).tag = .symbol ∨ (s.cell p).tag = .special) (he : name.flatMap fdwriteStringChar = t)
    (hw : Written m (.datum d last) t) : PrintOk s m p d := by
  refine .atom (t := t) (by rcases ht with h | h <;> rw [h] <;> decide) (fun fuel => ?_) hw
  simp only [displayHelper, St.rd_ok h.valid, ok_bind]
  rw [if_neg (by decide)]
  rcases ht with ht | ht <;> rw [ht] <;> simp only [fdwriteString_ok h, ok_bind, he] <;> rfl

theorem displayVector_ok {v : Int} : ∀ (es : List Datum) (i : Nat), (∀ j : Nat, j < es.length → s.Valid (v + (i + j : Nat)) ∧
      (∀ hj : j < es.length, ∃ n t last, (∀ fuel, n ≤ fuel → displayHelper s true fuel 5 (target s (v + (i + j : Nat))) false = ok (t, 4)) ∧
        Written m (.datum es[j] last) t)) →
    ∃ n t, (∀ fuel, n ≤ fuel → displayVector s true fuel 4 es.length (v + i) (decide (i = 0)) = ok (t, 4)) ∧
      Written m (.tail (.list es)) (t ++ [41]) ∧ (i ≠ 0 → Ends (t ++ [41])) := by
  intro es
  induction es with
  | nil =>
    intro i _
    refine ⟨1, [], fun fuel hf => ?_, .close .none, fun _ => by decide⟩
    obtain ⟨fuel, rfl⟩ : ∃ f, fuel = f + 1 := ⟨fuel - 1, by omega⟩
    rfl
  | cons e es ih =>
    intro i h
    obtain ⟨hv, h0⟩ := h 0 (by simp)
    obtain ⟨n1, t1, last, h1, w1⟩ := h0 (by simp)
    obtain ⟨n2, t2, h2, w2, e2⟩ := ih (i + 1) (fun j hj => by
      obtain ⟨a, b⟩ := h (j + 1) (by simp; omega)
      rw [show i + (j + 1) = i + 1 + j by omega] at a b
      exact ⟨a, fun hj => b (by simp; omega)⟩)
    have h1 := displayHelper_target hv h1
    refine ⟨n1 + n2 + 2, (if decide (i = 0) then [] else [32]) ++ t1 ++ t2, fun fuel hf => ?_, ?_, ?_⟩
    · obtain ⟨fuel, rfl⟩ : ∃ f, fuel = f + 1 := ⟨fuel - 1, by omega⟩
      have h2 := h2 fuel (by omega)
      rw [show (decide (i + 1 = 0)) = false by simp, show v + ((i + 1 : Nat) : Int) = v + i + 1 by omega] at h2
      have h1 := h1 fuel (by omega)
      rw [Nat.add_zero] at h1
      simp only [List.length_cons, displayVector, h1, ok_bind, h2]
    · have := Written.element (m := m) (d := .list es) .none .noGap (.inl rfl) w1 (fun _ => e2 (by omega)) w2
      by_cases hi : i = 0
      · simpa [hi, Datum.list] using this
      · simpa [hi, Datum.list] using this.blank_tail
    · intro hi
      simp [hi, Ends, IsDelimiter]

theorem Spec.Den.valid_of (hs : Printable s) {p : Int} {d : Datum} (h : Den s H P p d) : s.Valid p := by
  cases h with
  | nil => exact hs.nil.valid
  | bool b => cases b
              · exact hs.fls.valid
              · exact hs.tru.valid
  | num h => exact h.valid
  | chr h => exact h.valid
  | str h => exact h.valid
  | sym h => exact h.valid
  | kw h => exact h.valid
  | pair h => exact h
  | vec h => exact h

/-- What a predefined object denotes. -/
theorem Spec.Den.special {p : Int} {d : Datum} (h : Den s H P p d) (ht : (s.cell p).tag = .special) {name : List Byte}
    (hn : HasText s p name) : (p = c_nil ∧ d = .nil) ∨ (p = c_t ∧ d = .bool true) ∨ (p = c_f ∧ d = .bool false) ∨ d = .sym name := by
  cases h with
  | nil => exact .inl ⟨rfl, rfl⟩
  | bool b => cases b
              · exact .inr (.inr (.inl ⟨rfl, rfl⟩))
              · exact .inr (.inl ⟨rfl, rfl⟩)
  | num h => rw [h.tag] at ht; cases ht
  | chr h => rw [h.tag] at ht; cases ht
  | str h => rw [h.tag] at ht; cases ht
  | sym h => rw [h.inj hn]; simp
  | kw h ht' => rw [ht'] at ht; cases ht
  | pair _ h => rw [h] at ht; cases ht
  | vec _ h => rw [h] at ht; cases ht

theorem fdwriteChar_ok {c : Int} (h : c = 0 ∨ (7 ≤ c ∧ c ≤ 13) ∨ (32 ≤ c ∧ c ≤ 127)) :
    Written m (.datum (.chr c) true) (35 :: fdwriteChar c) := by
  have key : ∀ n : Nat, n < 128 → (n = 0 ∨ (7 ≤ n ∧ n ≤ 13) ∨ (32 ≤ n ∧ n ≤ 127)) →
      (35 :: fdwriteChar n = [35, 92, toByte n] ∧ code (toByte n) = n) ∨
      ∃ e ∈ characterNames, e.2 = n ∧ 35 :: fdwriteChar n = [35, 92] ++ e.1 := by decide +kernel
  obtain ⟨n, rfl⟩ : ∃ n : Nat, c = n := ⟨c.toNat, by omega⟩
  rcases key n (by omega) (by omega) with ⟨h1, h2⟩ | ⟨e, h1, h2, h3⟩
  · rw [h1, ← h2, toByte_code]; exact .chr _
  · rw [h3, ← h2]; exact .chrName h1

theorem printOk (hm : 45 ≤ m) (hs : Printable s) {p : Int} {d : Datum} (h : Den s H P p d) : Writable m d → PrintOk s m p d := by
  have special : ∀ a, c_nil ≤ a → a < 46 → (s.cell a).tag = .special := fun a h1 h2 => by
    rw [hs.fixed a h1 (by simp only [c_symbol_max]; omega), if_pos h2]
  induction h with
  | nil => exact fun _ => .named hs.nil (.inr (special _ (by decide) (by decide))) rfl (.list (.close .none))
  | bool b =>
    intro _
    cases b
    · exact .named hs.fls (.inr (special _ (by decide) (by decide))) rfl (.bool false)
    · exact .named hs.tru (.inr (special _ (by decide) (by decide))) rfl (.bool true)
  | @num p n h =>
    intro hw
    cases hw with
    | num hr =>
      obtain ⟨t, h1, h2⟩ := writeInt_ok (m := m) hm hr
      refine .atom (by rw [h.tag]; decide) (fun fuel => ?_) h2
      simp only [displayHelper, St.rd_ok h.valid, ok_bind, h.tag, h.value, h1]
      rfl
  | @chr p c h hr =>
    intro hw
    cases hw with
    | chr hc =>
      refine .atom (by rw [h.tag]; decide) (fun fuel => ?_) (fdwriteChar_ok hc)
      simp only [displayHelper, St.rd_ok h.valid, ok_bind, h.tag, h.value]
      rfl
  | @str p bs h =>
    intro hw
    cases hw with
    | str hl =>
      refine .atom (by rw [h.tag]; decide) (fun fuel => ?_) (.str (stringBody_flatMap bs) hl)
      simp only [displayHelper, St.rd_ok h.valid, ok_bind, h.tag, fdwriteString_ok h.toHasText]
      rfl
  | @sym p name h ht hl hne =>
    intro hw
    cases hw with
    | sym hi hp => exact .named h ht (flatMap_plain hi.chars hp) (.sym hi)
  | @kw p name h ht =>
    intro hw
    cases hw with
    | kw h1 h2 hp =>
      refine .atom (by rw [ht]; decide) (fun fuel => ?_) (.kw h1 h2)
      simp only [displayHelper, St.rd_ok h.valid, ok_bind, ht, fdwriteString_ok h, flatMap_plain h1.chars hp]
      rfl
  | @pair p a d hv ht ha hd iha ihd =>
    intro hw
    cases hw with
    | pair wa wd hc =>
      obtain ⟨⟨n1, t1, last, h1, w1⟩, -⟩ := iha wa
      obtain ⟨⟨n2, t2, last2, h2, w2⟩, ihd⟩ := ihd wd
      have hcirc : (s.cell p).car ≠ c_circular := by
        intro e
        rw [e] at ha
        rcases ha.special (special _ (by decide) (by decide)) hs.circ with h | h | h | h
        · exact absurd h.1 (by decide)
        · exact absurd h.1 (by decide)
        · exact absurd h.1 (by decide)
        · exact hc h
      have hdv := hd.valid_of hs
      have hd0 : (s.cell p).cdr ≠ 0 := by
        have := hdv.1
        omega
      have inside : ∃ n t, (∀ fuel depth cont, n ≤ fuel → depth ≠ 0 →
          displayHelper s true fuel depth p cont = ok (if cont then t else [40] ++ t ++ [41], 4)) ∧ Written m (.tail (.pair a d)) (t ++ [41]) := by
        by_cases hdp : (s.cell (s.cell p).cdr).tag = .pair
        · obtain ⟨n3, t3, h3, w3⟩ := ihd hdp
          refine ⟨n1 + n3 + 1, t1 ++ [32] ++ t3, fun fuel depth cont hf hdep => ?_, ?_⟩
          · obtain ⟨fuel, rfl⟩ : ∃ f, fuel = f + 1 := ⟨fuel - 1, by omega⟩
            simp only [displayHelper, St.rd_ok hv, ok_bind, ht, if_neg hdep, if_neg hcirc, h1 fuel (by omega), if_pos hd0,
              St.rd_ok hdv, if_pos hdp, h3 fuel 4 (by omega) (by decide)]
            rfl
          · have := Written.element (m := m) .none .noGap (.inl rfl) w1 (fun _ => by simp [Ends, IsDelimiter]) w3.blank_tail
            simpa using this
        · by_cases hn : (s.cell p).cdr = c_nil
          · have : d = .nil := by
              rw [hn] at hd
              rcases hd.special (special _ (by decide) (by decide)) hs.nil with h | h | h | h
              · exact h.2
              · exact absurd h.1 (by decide)
              · exact absurd h.1 (by decide)
              · subst h
                cases wd with
                | sym hi => exact absurd (hi.chars 40 (by decide)).1 (by decide)
            subst this
            refine ⟨n1 + 1, t1, fun fuel depth cont hf hdep => ?_, ?_⟩
            · obtain ⟨fuel, rfl⟩ : ∃ f, fuel = f + 1 := ⟨fuel - 1, by omega⟩
              simp only [displayHelper, St.rd_ok hv, ok_bind, ht, if_neg hdep, if_neg hcirc, h1 fuel (by omega), if_pos hd0,
                St.rd_ok hdv, if_neg hdp, if_neg (not_not_intro hn)]
              rfl
            · have := Written.element (m := m) .none .noGap (.inl rfl) w1 (fun _ => by simp [Ends, IsDelimiter]) (.close (w := []) .none)
              simpa using this
          · refine ⟨n1 + n2 + 1, t1 ++ lit " . " ++ t2, fun fuel depth cont hf hdep => ?_, ?_⟩
            · obtain ⟨fuel, rfl⟩ : ∃ f, fuel = f + 1 := ⟨fuel - 1, by omega⟩
              simp only [displayHelper, St.rd_ok hv, ok_bind, ht, if_neg hdep, if_neg hcirc, h1 fuel (by omega), if_pos hd0,
                St.rd_ok hdv, if_neg hdp, if_pos hn, h2 fuel (by omega)]
              rfl
            · have h4 := Written.dotted (m := m) (w1 := [32]) (w2 := [32]) (w3 := []) (.white (by decide) .none) (.white (by decide) .none) .noGap (.inl rfl)
                w2 (fun _ => by simp [Ends, IsDelimiter]) .none (by intro b hb; simp at hb; subst hb; decide)
              have := Written.lastElement (m := m) .none .noGap (.inl rfl) w1 (fun _ => by simp [Ends, IsDelimiter]) h4
              simpa [lit, ascii] using this
      obtain ⟨n, t, h3, w3⟩ := inside
      refine ⟨⟨n, [40] ++ t ++ [41], false, fun fuel hf => ?_, .list (by simpa using w3)⟩, fun _ => ⟨n, t, fun fuel depth hf hd => ?_, w3⟩⟩
      · simpa using h3 fuel 5 false hf (by decide)
      · simpa using h3 fuel depth true hf hd
  | @vec p es hv ht hl he h ih =>
    intro hw
    cases hw with
    | vec hes =>
      obtain ⟨n, t, h1, h2, -⟩ := displayVector_ok (s := s) (m := m) (v := (s.cell p).cdr) es 0 (fun j hj => by
        rw [Nat.zero_add]
        exact ⟨(he j hj).1, fun hj => (ih j hj (hes _ (List.getElem_mem hj))).1⟩)
      refine ⟨⟨n + 1, [35, 40] ++ t ++ [41], false, fun fuel hf => ?_, .vec (by simpa using h2)⟩, fun h => by rw [ht] at h; cases h⟩
      obtain ⟨fuel, rfl⟩ : ∃ f, fuel = f + 1 := ⟨fuel - 1, by omega⟩
      have h1 := h1 fuel (by omega)
      rw [show (s.cell p).cdr + ((0 : Nat) : Int) = (s.cell p).cdr by omega, decide_eq_true rfl] at h1
      simp only [displayHelper, St.rd_ok hv, ok_bind, ht, hl, Int.toNat_natCast, show (5 : Int) - 1 = 4 from rfl, h1]
      rfl

end Mes
