import Verif.Model.CNum
import Verif.Spec.Numeral
import Verif.Proof.Bytes
namespace Mes.C
open Res Spec

theorem digitVal_digitChar (i : Nat) (h : i < 36) : digitVal (digitChar i) = some i := by
  have key : ∀ i : Fin 36, digitVal (digitChar i.val) = some i.val := by decide
  exact key ⟨i, h⟩

theorem digitChar_eq_zero (i : Nat) (h : i < 36) : digitChar i = 48 ↔ i = 0 := by
  have key : ∀ i : Fin 36, digitChar i.val = 48 ↔ i.val = 0 := by decide
  exact key ⟨i, h⟩

theorem head?_append_ne {ds l : List UInt8} (h : ds ≠ []) : (ds ++ l).head? = ds.head? := by
  cases ds with
  | nil => exact absurd rfl h
  | cons d ds => rfl

theorem numVal_append (b : Nat) (ds : List UInt8) (c : UInt8) :
    numVal b (ds ++ [c]) = numVal b ds * b + (digitVal c).getD 0 := by
  simp [numVal, List.foldl_append]

/-- The digit loop of `ntoab` produces the numeral of `u`. -/
theorem ntoabLoop_ok (base : Nat) (hb : 2 ≤ base) (hb' : base ≤ 36) :
    ∀ (room u : Nat) (acc : List Byte), 0 < room → u < base ^ room →
      ∃ ds r, ntoabLoop base room u acc = ok (ds ++ acc, r) ∧ IsNumeral base u ds ∧ r + ds.length = room ∧
        (u ≠ 0 → ds.head? ≠ some 48) ∧ (∀ k, u < base ^ k → 0 < k → ds.length ≤ k) := by
  intro room
  induction room with
  | zero => intro u acc h; omega
  | succ room ih =>
    intro u acc _ hu
    have hi : u % base < 36 := Nat.lt_of_lt_of_le (Nat.mod_lt _ (by omega)) hb'
    have hi' : u % base < base := Nat.mod_lt _ (by omega)
    unfold ntoabLoop
    by_cases hz : u / base = 0
    · have hlt : u < base := by
        rcases Nat.div_eq_zero_iff.mp hz with h | h
        · omega
        · exact h
      have hm : u % base = u := Nat.mod_eq_of_lt hlt
      refine ⟨[digitChar (u % base)], room, by simp [hz], ⟨by simp, ?_, ?_, ?_⟩, rfl, ?_, ?_⟩
      · intro c hc
        simp only [List.mem_singleton] at hc
        subst hc
        exact ⟨u % base, digitVal_digitChar _ hi, hi'⟩
      · rw [hm] at hi ⊢; simp [numVal, digitVal_digitChar _ hi]
      · intro h
        simp only [List.head?_cons, Option.some.injEq] at h
        rw [h]
      · intro h0
        simp only [List.head?_cons, ne_eq, Option.some.injEq, digitChar_eq_zero _ hi]
        omega
      · intro k _ hk
        simp; omega
    · have hroom : 0 < room := by
        rcases Nat.eq_zero_or_pos room with h | h
        · subst h
          exfalso; apply hz
          rw [Nat.div_eq_of_lt (by simpa using hu)]
        · exact h
      have hu' : u / base < base ^ room := by
        rw [Nat.div_lt_iff_lt_mul (by omega)]
        rwa [Nat.pow_succ] at hu
      obtain ⟨ds, r, he, hn, hr, hh, hk⟩ := ih (u / base) (digitChar (u % base) :: acc) hroom hu'
      refine ⟨ds ++ [digitChar (u % base)], r, ?_, ⟨by simp, ?_, ?_, ?_⟩, ?_, ?_, ?_⟩
      · simp only [ne_eq, hz, not_false_eq_true, if_true, he]; simp
      · intro c hc
        rcases List.mem_append.mp hc with h | h
        · exact hn.digits c h
        · simp only [List.mem_singleton] at h
          subst h
          exact ⟨u % base, digitVal_digitChar _ hi, hi'⟩
      · rw [numVal_append, hn.value, digitVal_digitChar _ hi, Nat.mul_comm]
        exact Nat.div_add_mod u base
      · intro h
        exfalso
        rw [head?_append_ne hn.nonempty] at h
        exact hh hz h
      · simp; omega
      · intro _
        rw [head?_append_ne hn.nonempty]
        exact hh hz
      · intro k hk1 hk0
        obtain ⟨k, rfl⟩ : ∃ j, k = j + 1 := ⟨k - 1, by omega⟩
        have hk2 : u / base < base ^ k := by
          rw [Nat.div_lt_iff_lt_mul (by omega)]
          rwa [Nat.pow_succ] at hk1
        have : 0 < k := by
          rcases Nat.eq_zero_or_pos k with h | h
          · subst h; exact absurd (by simpa using hk2) hz
          · exact h
        have := hk k hk2 this
        simp; omega

theorem ntoab_signed {w base : Nat} (hb : 2 ≤ base) (hb' : base ≤ 36) {x : Int} (hx1 : x < (2 ^ w : Nat))
    (hfit : (0 ≤ x ∧ x.natAbs < base ^ 11) ∨ x.natAbs < base ^ 10) :
    ∃ text, ntoab w x base true = ok text ∧ IsSigned base x text := by
  have h10 : base ^ 10 ≤ base ^ 11 := Nat.pow_le_pow_right (by omega) (by omega)
  unfold ntoab
  rw [assert_true (show base > 0 by omega)]
  by_cases hneg : x < 0
  · have hu : (-(x + 1)).toNat + 1 = x.natAbs := by omega
    have hf : x.natAbs < base ^ 10 := by omega
    obtain ⟨ds, r, he, hn, hr, hh, hk⟩ := ntoabLoop_ok base hb hb' 11 x.natAbs [] (by omega) (by omega)
    have hlen := hk 10 hf (by omega)
    obtain ⟨r, rfl⟩ : ∃ j, r = j + 1 := ⟨r - 1, by omega⟩
    have hh' := hh (by omega)
    refine ⟨45 :: ds, ?_, Or.inr ⟨hneg, ds, rfl, hn⟩⟩
    simp [hneg, hu, he, hh']
  · have hu : (x % (2 ^ w : Nat)).toNat = x.natAbs := by
      rw [Int.emod_eq_of_lt (by omega) hx1]; omega
    obtain ⟨ds, r, he, hn, hr, hh, hk⟩ := ntoabLoop_ok base hb hb' 11 x.natAbs [] (by omega) (by omega)
    refine ⟨ds, ?_, Or.inl ⟨by omega, hn⟩⟩
    simp only [hneg, decide_false, Bool.and_false, ok_bind, Bool.false_eq_true, if_false, hu, he, false_and]
    simp

theorem ntoab_unsigned {w base : Nat} (hb : 2 ≤ base) (hb' : base ≤ 36) {x : Int}
    (hfit : (x % (2 ^ w : Nat)).toNat < base ^ 11) :
    ∃ text, ntoab w x base false = ok text ∧ IsNumeral base (x % (2 ^ w : Nat)).toNat text := by
  unfold ntoab
  rw [assert_true (show base > 0 by omega)]
  obtain ⟨ds, r, he, hn, hr, hh, hk⟩ := ntoabLoop_ok base hb hb' 11 _ [] (by omega) hfit
  refine ⟨ds, ?_, hn⟩
  simp only [Bool.false_and, ok_bind, Bool.false_eq_true, if_false, he, false_and]
  simp

theorem abtolSpace_ok {m : Mem} : ∀ (ws : List Byte) (fuel s : Nat) (b : Byte), ws.length < fuel → At m s ws →
    (∀ c ∈ ws, isspace (sc c) = true) → m[s + ws.length]? = some b → isspace (sc b) = false →
    abtolSpace m fuel s = ok (s + ws.length) := by
  intro ws
  induction ws with
  | nil =>
    intro fuel s b hf _ _ hb hsp
    obtain ⟨fuel, rfl⟩ : ∃ f, fuel = f + 1 := ⟨fuel - 1, by simp at hf; omega⟩
    simp only [List.length_nil, Nat.add_zero] at hb ⊢
    simp [abtolSpace, rd_ok hb, hsp]
  | cons c ws ih =>
    intro fuel s b hf hat hws hb hsp
    obtain ⟨fuel, rfl⟩ : ∃ f, fuel = f + 1 := ⟨fuel - 1, by simp at hf; omega⟩
    have h0 : m[s]? = some c := by simpa using hat 0 (by simp)
    have hc := hws c (by simp)
    rw [abtolSpace, rd_ok h0]
    simp only [ok_bind, hc, if_true]
    rw [ih fuel (s + 1) b (by simp at hf; omega)]
    · simp; omega
    · intro i hi
      have := hat (i + 1) (by simpa using hi)
      rw [show s + 1 + i = s + (i + 1) by omega, this]; simp
    · intro c hc; exact hws c (by simp [hc])
    · rw [← hb]; congr 1; simp; omega
    · exact hsp

theorem isnumber_iff {base : Nat} (hbase : base = 2 ∨ base = 8 ∨ base = 10 ∨ base = 16) (c : Byte) :
    isnumber (sc c) base = ok (decide (IsDigit base c)) := by
  have key : ∀ base : Fin 17, (base.val = 2 ∨ base.val = 8 ∨ base.val = 10 ∨ base.val = 16) →
      ∀ n : Fin 256, isnumber (sc (UInt8.ofNat n.val)) base.val = ok (decide (IsDigit base.val (UInt8.ofNat n.val))) := by
    decide +kernel
  have := key ⟨base, by omega⟩ hbase ⟨c.toNat, c.toNat_lt⟩
  simpa using this

/-- Letter digits: the codes above `'9'`. -/
theorem digit_cases {base : Nat} {c : Byte} (h : IsDigit base c) :
    (sc c ≤ 57 ∧ sc c = ((digitVal c).getD 0 : Nat) + 48) ∨ (57 < sc c ∧ sc c = ((digitVal c).getD 0 : Nat) + 87) := by
  obtain ⟨v, hv, -⟩ := h
  rw [hv]
  have := c.toNat_lt
  unfold digitVal at hv
  unfold sc
  split at hv
  · cases hv; left; simp only [Option.getD_some]; constructor <;> (split <;> omega)
  · split at hv
    · cases hv; right; simp only [Option.getD_some]; constructor <;> (split <;> omega)
    · cases hv

theorem digit_lt {base : Nat} {c : Byte} (h : IsDigit base c) : (digitVal c).getD 0 < base := by
  obtain ⟨v, hv, hl⟩ := h
  simpa [hv] using hl

theorem foldl_numVal_ge (b : Nat) (hb : 0 < b) (ds : List UInt8) : ∀ a,
    a ≤ ds.foldl (fun a c => a * b + (digitVal c).getD 0) a := by
  induction ds with
  | nil => intro a; exact Nat.le_refl _
  | cons c ds ih =>
    intro a
    refine Nat.le_trans ?_ (ih _)
    exact Nat.le_trans (Nat.le_mul_of_pos_right a hb) (Nat.le_add_right _ _)

theorem abtolDigits_ok {m : Mem} {base : Nat} (hbase : base = 2 ∨ base = 8 ∨ base = 10 ∨ base = 16) :
    ∀ (ds : List Byte) (fuel s i : Nat) (off : Int) (b : Byte), ds.length < fuel → At m s ds →
      (∀ c ∈ ds, IsDigit base c) →
      ((off = 48 ∧ (∀ p c q, ds = p ++ c :: q → 57 < sc c → ∀ e ∈ q, 57 < sc e)) ∨ (off = 87 ∧ ∀ c ∈ ds, 57 < sc c)) →
      ds.foldl (fun a c => a * base + (digitVal c).getD 0) i + 87 ≤ 2147483647 ∨
        (off = 48 ∧ (∀ c ∈ ds, sc c ≤ 57) ∧
          ds.foldl (fun a c => a * base + (digitVal c).getD 0) i + 48 ≤ 2147483647) →
      m[s + ds.length]? = some b → ¬ IsDigit base b →
      abtolDigits m base fuel s i off =
        ok (((ds.foldl (fun a c => a * base + (digitVal c).getD 0) i : Nat) : Int), s + ds.length) := by
  intro ds
  induction ds with
  | nil =>
    intro fuel s i off b hf _ _ _ _ hb hnd
    obtain ⟨fuel, rfl⟩ : ∃ f, fuel = f + 1 := ⟨fuel - 1, by simp at hf; omega⟩
    simp only [List.length_nil, Nat.add_zero] at hb ⊢
    simp [abtolDigits, rd_ok hb, isnumber_iff hbase, hnd]
  | cons c ds ih =>
    intro fuel s i off b hf hat hds hoff hmax hb hnd
    obtain ⟨fuel, rfl⟩ : ∃ f, fuel = f + 1 := ⟨fuel - 1, by simp at hf; omega⟩
    have h0 : m[s]? = some c := by simpa using hat 0 (by simp)
    have hc := hds c (by simp)
    have hv := digit_lt hc
    have hb0 : 0 < base := by omega
    simp only [List.foldl_cons] at hmax ⊢
    have hge := foldl_numVal_ge base hb0 ds (i * base + (digitVal c).getD 0)
    rw [abtolDigits, rd_ok h0]
    simp only [ok_bind, isnumber_iff hbase, hc, decide_true, if_true]
    have e1 : int32 ((i : Int) * base) = ok ((i * base : Nat) : Int) := by
      unfold int32; rw [if_pos (by push_cast; omega)]; simp
    rw [e1]
    simp only [ok_bind]
    have hat' : At m (s + 1) ds := by
      intro j hj
      have := hat (j + 1) (by simpa using hj)
      rw [show s + 1 + j = s + (j + 1) by omega, this]; simp
    have hb' : m[s + 1 + ds.length]? = some b := by rw [← hb]; congr 1; simp; omega
    have hlen : s + 1 + ds.length = s + (c :: ds).length := by simp; omega
    rcases digit_cases hc with ⟨hle, hsc⟩ | ⟨hgt, hsc⟩
    · have hoff48 : off = 48 := by
        rcases hoff with h | h
        · exact h.1
        · have := h.2 c (by simp); omega
      rw [if_neg (by omega)]
      have e2 : int32 (((i * base : Nat) : Int) + sc c) = ok (((i * base : Nat) : Int) + sc c) := by
        unfold int32; rw [if_pos (by omega)]
      rw [e2]
      simp only [ok_bind]
      have e3 : int32 (((i * base : Nat) : Int) + sc c - off) = ok ((i * base + (digitVal c).getD 0 : Nat) : Int) := by
        unfold int32; rw [if_pos (by omega)]; congr 1; omega
      rw [e3]
      simp only [ok_bind]
      rw [ih fuel (s + 1) (i * base + (digitVal c).getD 0) off b (by simp at hf; omega) hat'
        (fun c hc => hds c (by simp [hc])) ?_ ?_ hb' hnd, hlen]
      · left
        refine ⟨hoff48, ?_⟩
        intro p d q heq
        rcases hoff with h | h
        · exact h.2 (c :: p) d q (by simp [heq])
        · omega
      · rcases hmax with h | h
        · left; exact h
        · right; exact ⟨h.1, fun c hc => h.2.1 c (by simp [hc]), h.2.2⟩
    · rw [if_pos (by omega)]
      have hmax' : ds.foldl (fun a c => a * base + (digitVal c).getD 0) (i * base + (digitVal c).getD 0) + 87
          ≤ 2147483647 := by
        rcases hmax with h | h
        · exact h
        · have := h.2.1 c (by simp); omega
      have e2 : int32 (((i * base : Nat) : Int) + sc c) = ok (((i * base : Nat) : Int) + sc c) := by
        unfold int32; rw [if_pos (by omega)]
      rw [e2]
      simp only [ok_bind]
      have e3 : int32 (((i * base : Nat) : Int) + sc c - (97 - 10)) = ok ((i * base + (digitVal c).getD 0 : Nat) : Int) := by
        unfold int32; rw [if_pos (by omega)]; congr 1; omega
      rw [e3]
      simp only [ok_bind]
      have hall : ∀ e ∈ ds, 57 < sc e := by
        rcases hoff with h | h
        · exact h.2 [] c ds rfl hgt
        · intro e he; exact h.2 e (by simp [he])
      rw [show (97 - 10 : Int) = 87 by rfl]
      rw [ih fuel (s + 1) (i * base + (digitVal c).getD 0) 87 b (by simp at hf; omega) hat'
        (fun c hc => hds c (by simp [hc])) (Or.inr ⟨rfl, hall⟩) (Or.inl hmax') hb' hnd, hlen]


/-- The whole of `abtol` on optional white space, an optional sign and digits. -/
theorem abtol_ok {m : Mem} {base : Nat} (hbase : base = 2 ∨ base = 8 ∨ base = 10 ∨ base = 16) (arg : Int)
    (harg : arg = base ∨ (arg = 0 ∧ base = 10)) (s : Nat) (ws ds : List Byte) (sign : List Byte) (b : Byte)
    (hsign : sign = [] ∨ sign = [43] ∨ sign = [45]) (hws : ∀ c ∈ ws, isspace (sc c) = true)
    (hne : ds ≠ []) (hds : ∀ c ∈ ds, IsDigit base c)
    (hord : ∀ p c q, ds = p ++ c :: q → 57 < sc c → ∀ e ∈ q, 57 < sc e)
    (hmax : numVal base ds + 87 ≤ 2147483647 ∨ ((∀ c ∈ ds, sc c ≤ 57) ∧ numVal base ds + 48 ≤ 2147483647))
    (hat : At m s (ws ++ sign ++ ds ++ [b])) (hnd : ¬ IsDigit base b) :
    abtol m s arg = ok ((if sign = [45] then -(numVal base ds : Int) else numVal base ds),
      s + ws.length + sign.length + ds.length) := by
  have get : ∀ i, i < (ws ++ sign ++ ds ++ [b]).length → m[s + i]? = (ws ++ sign ++ ds ++ [b])[i]? := hat
  have hlen := hat.le (by simp)
  simp only [List.length_append, List.length_singleton] at hlen
  have hatws : At m s ws := by
    intro i hi
    rw [get i (by simp; omega)]
    simp [List.append_assoc, List.getElem?_append_left hi]
  have hatds : At m (s + ws.length + sign.length) ds := by
    intro i hi
    have := get (ws.length + sign.length + i) (by simp; omega)
    rw [show s + ws.length + sign.length + i = s + (ws.length + sign.length + i) by omega, this]
    rw [List.getElem?_append_left (by simp only [List.length_append]; omega),
      List.getElem?_append_right (by simp only [List.length_append]; omega)]
    congr 1; simp only [List.length_append]; omega
  have hend : m[s + ws.length + sign.length + ds.length]? = some b := by
    have := get (ws.length + sign.length + ds.length) (by simp only [List.length_append, List.length_singleton]; omega)
    rw [show s + ws.length + sign.length + ds.length = s + (ws.length + sign.length + ds.length) by omega, this]
    rw [List.getElem?_append_right (by simp only [List.length_append]; omega)]
    simp only [List.length_append, Nat.sub_self, List.getElem?_cons_zero]
  have harg' : (if arg = 0 then 10 else arg) = (base : Int) := by
    rcases harg with h | h
    · rw [if_neg (by omega)]; exact h
    · rw [if_pos h.1, h.2]; rfl
  have hmax' : ds.foldl (fun a c => a * base + (digitVal c).getD 0) 0 + 87 ≤ 2147483647 ∨
        ((48 : Int) = 48 ∧ (∀ c ∈ ds, sc c ≤ 57) ∧
          ds.foldl (fun a c => a * base + (digitVal c).getD 0) 0 + 48 ≤ 2147483647) := by
    rcases hmax with h | h
    · exact Or.inl h
    · exact Or.inr ⟨rfl, h.1, h.2⟩
  have hdig := abtolDigits_ok (m := m) hbase ds (m.length + 1) (s + ws.length + sign.length) 0 48 b (by omega) hatds hds
    (Or.inl ⟨rfl, hord⟩) hmax' hend hnd
  have hval : ds.foldl (fun a c => a * base + (digitVal c).getD 0) 0 = numVal base ds := rfl
  rw [hval] at hdig
  simp only [Int.cast_ofNat_Int] at hdig
  obtain ⟨d, ds', rfl⟩ : ∃ d ds', ds = d :: ds' := by
    cases ds with
    | nil => exact absurd rfl hne
    | cons d ds' => exact ⟨d, ds', rfl⟩
  have hd0 : m[s + ws.length + sign.length]? = some d := by simpa using hatds 0 (by simp)
  have hdsp : isspace (sc d) = false ∧ sc d ≠ 43 ∧ sc d ≠ 45 := by
    have h1 := digit_cases (hds d (by simp))
    have h2 : isspace (sc d) = false := by
      unfold isspace; simp; omega
    refine ⟨h2, ?_, ?_⟩ <;> omega
  unfold abtol
  simp only [harg']
  rcases hsign with rfl | rfl | rfl
  · simp only [List.length_nil, Nat.add_zero] at *
    rw [abtolSpace_ok ws (m.length + 1) s d (by omega) hatws hws hd0 hdsp.1]
    simp only [ok_bind, rd_ok hd0, hdsp.2.1, hdsp.2.2, and_false, if_false]
    rw [hdig]
    simp
  · simp only [List.length_singleton] at *
    have hp : m[s + ws.length]? = some 43 := by
      rw [get ws.length (by simp)]; simp [List.append_assoc]
    rw [abtolSpace_ok ws (m.length + 1) s 43 (by omega) hatws hws hp (by decide)]
    simp only [ok_bind, rd_ok hp, show sc 43 = 43 by decide, show (43 : Byte) ≠ 0 by decide, and_self, if_true,
      rd_ok hd0, hdsp.2.2, and_false, if_false, ne_eq, not_false_eq_true]
    rw [hdig]
    simp
  · simp only [List.length_singleton] at *
    have hp : m[s + ws.length]? = some 45 := by
      rw [get ws.length (by simp)]; simp [List.append_assoc]
    rw [abtolSpace_ok ws (m.length + 1) s 45 (by omega) hatws hws hp (by decide)]
    have hi : int32 (-(numVal base (d :: ds') : Int)) = ok (-(numVal base (d :: ds') : Int)) := by
      unfold int32; rw [if_pos (by omega)]
    have h45 : ((45 : Int) = 43) = False := by decide
    simp only [ok_bind, rd_ok hp, show sc 45 = 45 by decide, h45, show (45 : Byte) ≠ 0 by decide, and_self, if_true,
      and_false, if_false, ne_eq, not_false_eq_true]
    rw [hdig]
    simp only [ok_bind, hi]

end Mes.C
