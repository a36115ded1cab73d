import Verif.Proof.Printf
/- Formatted output: every format ends, and only the buffer and the objects for `%n` are changed. -/
namespace Mes.C
open Res Spec

/-- It does not run forever, and if it has a result it is as `P` says. -/
def Fine {α : Type} (P : α → Prop) : Res α → Prop
  | ok a => P a
  | .loop => False
  | _ => True

theorem Fine.bind {α β : Type} {P : α → Prop} {Q : β → Prop} {x : Res α} {f : α → Res β} (h : Fine P x) (hf : ∀ a, P a → Fine Q (f a)) : Fine Q (x >>= f) := by
  cases x with
  | ok a => exact hf a h
  | loop => exact h
  | _ => trivial

theorem Fine.mono {α : Type} {P Q : α → Prop} {x : Res α} (h : Fine P x) (hf : ∀ a, P a → Q a) : Fine Q x := by
  cases x with
  | ok a => exact hf a h
  | loop => exact h
  | _ => trivial

theorem fine_rd (m : Mem) (a : Nat) : Fine (fun _ => a < m.length) (m.rd a) := by
  by_cases h : a < m.length
  · obtain ⟨b, hb⟩ := exists_of_lt h
    rw [rd_ok hb]; exact h
  · rw [rd_ub (by omega)]; trivial

theorem fine_int32 (x : Int) : Fine (fun y => y = x) (int32 x) := by
  unfold int32; split
  · rfl
  · trivial

theorem fine_ubUnless (p : Prop) [Decidable p] : Fine (fun _ => p) (ubUnless p) := by
  unfold ubUnless; split
  · assumption
  · trivial

theorem fine_vaArg (args : List Int) : Fine (fun r => args = r.1 :: r.2) (vaArg args) := by
  cases args <;> simp [vaArg, Fine]

variable {t : Target} {m : Mem} {str : Nat} {A : Nat → Prop} {o : Out}

/-- Only the buffer and `A` have been changed. -/
structure Safe (t : Target) (m : Mem) (str : Nat) (A : Nat → Prop) (o : Out) : Prop where
  len : o.mem.length = m.length
  pos : ∀ size, t = .buffer size → o.pos = str + min size o.count
  frame : ∀ i, (∀ size, t = .buffer size → i < str ∨ str + size ≤ i) → ¬ A i → o.mem[i]? = m[i]?

theorem fine_tick {o : Out} : Fine (fun o' => o' = { o with count := o.count + 1 }) o.tick := by
  unfold Out.tick; split
  · rfl
  · trivial

theorem put_fine (c : Byte) (h : Safe t m str A o) : Fine (Safe t m str A) (put t c o) := by
  cases t with
  | file =>
    refine fine_tick.mono ?_
    rintro _ rfl
    exact ⟨h.len, nofun, h.frame⟩
  | buffer size =>
    have hp := h.pos size rfl
    simp only [put]
    split
    · unfold Out.store
      by_cases hl : o.pos < o.mem.length
      · rw [wr_ok _ hl]
        simp only [ok_bind]
        refine fine_tick.mono ?_
        rintro _ rfl
        refine ⟨by simpa using h.len, ?_, ?_⟩
        · rintro _ ⟨⟩
          simp only; omega
        · intro i hi ha
          have := hi size rfl
          simp only
          rw [getElem?_set' _ _ _ _ hl, if_neg (by omega)]
          exact h.frame i hi ha
      · rw [wr_ub _ (by omega)]; trivial
    · refine fine_tick.mono ?_
      rintro _ rfl
      refine ⟨h.len, ?_, h.frame⟩
      rintro _ ⟨⟩
      simp only; omega

theorem putChar_fine (c : Byte) (h : Safe t m str A o) : Fine (Safe t m str A) (putChar t c o) := by
  cases t with
  | file => exact ⟨h.len, nofun, h.frame⟩
  | buffer size => exact put_fine c h

theorem padLoop_fine {pad : Byte} {precision : Int} : ∀ (fuel : Nat) {width : Int} {o : Out}, (width - precision).toNat < fuel → Safe t m str A o →
    Fine (fun r => Safe t m str A r.2) (padLoop t pad precision fuel width o)
  | 0, _, _, h, _ => absurd h (by omega)
  | fuel + 1, width, o, h, hs => by
    rw [padLoop]
    refine (fine_int32 _).bind ?_
    rintro _ rfl
    split
    · exact (put_fine _ hs).bind fun o' ho' => padLoop_fine fuel (by omega) ho'
    · exact hs

theorem fillLoop_fine {fill : Byte} {length : Int} : ∀ (fuel : Nat) {precision width : Int} {o : Out}, (precision - length).toNat < fuel → Safe t m str A o →
    Fine (fun r => Safe t m str A r.2.2) (fillLoop t fill length fuel precision width o)
  | 0, _, _, _, h, _ => absurd h (by omega)
  | fuel + 1, precision, width, o, h, hs => by
    rw [fillLoop]
    split
    · refine (put_fine _ hs).bind fun o' ho' => ?_
      refine (fine_int32 _).bind fun _ _ => ?_
      exact fillLoop_fine fuel (by omega) ho'
    · exact hs

theorem blankLoop_fine {length : Int} : ∀ (fuel : Nat) {precision width : Int} {o : Out}, (width - length).toNat < fuel → Safe t m str A o →
    Fine (fun r => Safe t m str A r.2.2) (blankLoop t length fuel precision width o)
  | 0, _, _, _, h, _ => absurd h (by omega)
  | fuel + 1, precision, width, o, h, hs => by
    rw [blankLoop]
    split
    · refine (put_fine _ hs).bind fun o' ho' => ?_
      refine (fine_int32 _).bind fun _ _ => ?_
      exact blankLoop_fine fuel (by omega) ho'
    · exact hs

theorem textLoop_fine : ∀ (s : List Byte) {precision width : Int} {o : Out}, Safe t m str A o →
    Fine (fun r => Safe t m str A r.2) (textLoop t s precision width o)
  | [], _, _, _, hs => hs
  | b :: s, precision, width, o, hs => by
    rw [textLoop]
    refine (fine_int32 _).bind fun _ _ => ?_
    split
    · exact hs
    · refine (fine_int32 _).bind fun _ _ => ?_
      exact (put_fine _ hs).bind fun o' ho' => textLoop_fine s ho'

theorem stringLoop_fine : ∀ (fuel : Nat) {s : Nat} {precision width : Int} {o : Out}, 0 < fuel → m.length < fuel + s → Safe t m str A o →
    Fine (fun r => Safe t m str A r.2) (stringLoop t fuel s precision width o)
  | 0, _, _, _, _, h, _, _ => absurd h (by omega)
  | fuel + 1, s, precision, width, o, _, h, hs => by
    rw [stringLoop]
    refine (fine_rd _ _).bind fun b hb => ?_
    split
    · exact hs
    · refine (fine_int32 _).bind fun _ _ => ?_
      split
      · exact hs
      · refine (fine_int32 _).bind fun _ _ => ?_
        exact (put_fine _ hs).bind fun o' ho' => stringLoop_fine fuel (by have := hs.len; omega) (by omega) ho'

theorem tailLoop_fine {pad : Byte} : ∀ (n : Nat) {o : Out}, Safe t m str A o → Fine (Safe t m str A) (tailLoop t pad n o)
  | 0, _, hs => hs
  | n + 1, o, hs => by
    rw [tailLoop]
    exact (put_fine _ hs).bind fun o' ho' => tailLoop_fine n ho'

/-! ### The other loops end -/

theorem strlenLoop_fine {s : Nat} : ∀ (fuel : Nat) {i : Nat}, 0 < fuel → m.length < fuel + s + i → Fine (fun _ => True) (strlenLoop m s fuel i)
  | 0, _, h, _ => absurd h (by omega)
  | fuel + 1, i, _, h => by
    rw [strlenLoop]
    refine (fine_rd _ _).bind fun b hb => ?_
    split
    · trivial
    · refine (fine_ubUnless _).bind fun _ _ => ?_
      exact strlenLoop_fine fuel (by omega) (by omega)

theorem strlen_fine (m : Mem) (s : Nat) : Fine (fun _ => True) (strlen m s) := strlenLoop_fine _ (by omega) (by omega)

theorem abtolSpace_fine : ∀ (fuel : Nat) {s : Nat}, 0 < fuel → m.length < fuel + s → Fine (fun s' => s ≤ s') (abtolSpace m fuel s)
  | 0, _, h, _ => absurd h (by omega)
  | fuel + 1, s, _, h => by
    rw [abtolSpace]
    refine (fine_rd _ _).bind fun b hb => ?_
    split
    · exact (abtolSpace_fine fuel (by omega) (by omega)).mono fun s' h => by omega
    · exact Nat.le_refl _

theorem fine_isnumber (c base : Int) : Fine (fun _ => True) (isnumber c base) := by
  unfold isnumber; repeat' split
  all_goals trivial

theorem abtolDigits_fine {base : Int} : ∀ (fuel : Nat) {s : Nat} {i off : Int}, 0 < fuel → m.length < fuel + s →
    Fine (fun r => s ≤ r.2) (abtolDigits m base fuel s i off)
  | 0, _, _, _, h, _ => absurd h (by omega)
  | fuel + 1, s, i, off, _, h => by
    rw [abtolDigits]
    refine (fine_rd _ _).bind fun b hb => ?_
    refine (fine_isnumber _ _).bind fun d _ => ?_
    split
    · refine (fine_int32 _).bind fun _ _ => ?_
      refine (fine_int32 _).bind fun _ _ => ?_
      refine (fine_int32 _).bind fun _ _ => ?_
      exact (abtolDigits_fine fuel (by omega) (by omega)).mono fun s' h => by omega
    · exact Nat.le_refl _

theorem abtol_fine {s : Nat} {base : Int} : Fine (fun r => s ≤ r.2) (abtol m s base) := by
  unfold abtol
  refine (abtolSpace_fine _ (by omega) (by omega)).bind fun s1 h1 => ?_
  refine (fine_rd _ _).bind fun b hb => ?_
  simp only
  have h2 : s1 ≤ (if b ≠ 0 ∧ sc b = 43 then s1 + 1 else s1) := by split <;> omega
  generalize (if b ≠ 0 ∧ sc b = 43 then s1 + 1 else s1) = s2 at h2
  refine (fine_rd _ _).bind fun b' hb => ?_
  have h3 : s2 ≤ (if b' ≠ 0 ∧ sc b' = 45 then s2 + 1 else s2) := by split <;> omega
  generalize (if b' ≠ 0 ∧ sc b' = 45 then s2 + 1 else s2) = s3 at h3
  refine (abtolDigits_fine _ (by omega) (by omega)).bind fun r hr => ?_
  split
  · refine (fine_int32 _).bind fun _ _ => ?_
    show s ≤ r.2
    omega
  · show s ≤ r.2
    omega

theorem ntoabLoop_fine {base : Nat} : ∀ (room : Nat) {u : Nat} {acc : List Byte}, Fine (fun _ => True) (ntoabLoop base room u acc)
  | 0, _, _ => trivial
  | room + 1, u, acc => by
    rw [ntoabLoop]
    split
    · exact ntoabLoop_fine room
    · trivial

theorem ntoab_fine {w base : Nat} {x : Int} {signed : Bool} : Fine (fun _ => True) (ntoab w x base signed) := by
  unfold ntoab
  refine Fine.bind (P := fun _ => True) ?_ fun _ _ => ?_
  · unfold assert; split <;> trivial
  · refine (ntoabLoop_fine _).bind fun r _ => ?_
    obtain ⟨text, room⟩ := r
    simp only
    split
    · cases room <;> trivial
    · trivial

theorem numberText_fine {w : Nat} {c : Byte} {x : Int} : Fine (fun _ => True) (numberText w c x) :=
  ntoab_fine.bind fun _ _ => trivial

/-! ### Conversions -/

theorem parseLeft_fine {p : Nat} : Fine (fun r => p ≤ r.2.2) (parseLeft m p) := by
  unfold parseLeft
  refine (fine_rd _ _).bind fun b hb => ?_
  split
  · exact (fine_rd _ _).bind fun b hb => Nat.le_succ _
  · exact Nat.le_refl _

theorem parsePad_fine {p : Nat} {flag pad c : Byte} : Fine (fun r => p ≤ r.2.2) (parsePad m flag pad c p) := by
  unfold parsePad
  split
  · exact (fine_rd _ _).bind fun b hb => Nat.le_succ _
  · exact Nat.le_refl _

/-- The arguments left. -/
def Tail' (l l' : List Int) : Prop := ∀ x ∈ l', x ∈ l

theorem parseNumber_fine {p : Nat} {c : Byte} {args : List Int} : Fine (fun r => p ≤ r.2.2.1 ∧ Tail' args r.2.2.2) (parseNumber m c p args) := by
  unfold parseNumber
  split
  · refine abtol_fine.bind fun r hr => ?_
    exact (fine_rd _ _).bind fun b hb => ⟨hr, fun x h => h⟩
  · split
    · refine (fine_vaArg _).bind fun r hr => ?_
      exact (fine_rd _ _).bind fun b hb => ⟨Nat.le_succ _, fun x h => by rw [hr]; exact List.mem_cons_of_mem _ h⟩
    · exact ⟨Nat.le_refl _, fun x h => h⟩

theorem parsePrecision_fine {p : Nat} {c : Byte} {args : List Int} : Fine (fun r => p ≤ r.2.2.1 ∧ Tail' args r.2.2.2) (parsePrecision m c p args) := by
  unfold parsePrecision
  split
  · refine (fine_rd _ _).bind fun b hb => ?_
    exact parseNumber_fine.mono fun r hr => ⟨by omega, hr.2⟩
  · exact ⟨Nat.le_refl _, fun x h => h⟩

theorem skipLong_fine : ∀ (n : Nat) {p : Nat} {c : Byte}, Fine (fun r => p ≤ r.2) (skipLong m n c p)
  | 0, p, c => Nat.le_refl _
  | n + 1, p, c => by
    rw [skipLong]
    split
    · refine (fine_rd _ _).bind fun b hb => ?_
      exact (skipLong_fine n).mono fun r hr => by omega
    · exact Nat.le_refl _

theorem parseField_fine {p : Nat} {args : List Int} : Fine (fun r => p ≤ r.2.2.1 ∧ Tail' args r.2.2.2) (parseField t m p args) := by
  unfold parseField
  refine parseLeft_fine.bind ?_
  rintro ⟨l, c1, p1⟩ (h1 : p ≤ p1)
  refine parsePad_fine.bind ?_
  rintro ⟨pad, c2, p2⟩ (h2 : p1 ≤ p2)
  refine parsePad_fine.bind ?_
  rintro ⟨pad', c3, p3⟩ (h3 : p2 ≤ p3)
  refine parseNumber_fine.bind ?_
  rintro ⟨w, c4, p4, args4⟩ (h4 : p3 ≤ p4 ∧ Tail' args args4)
  refine parsePrecision_fine.bind ?_
  rintro ⟨k, c5, p5, args5⟩ (h5 : p4 ≤ p5 ∧ Tail' args4 args5)
  refine (skipLong_fine _).bind ?_
  rintro ⟨c6, p6⟩ (h6 : p5 ≤ p6)
  exact ⟨by show p ≤ p6; omega, fun x h => h4.2 x (h5.2 x h)⟩

theorem leadNumber_fine {f : Field} {fill : Byte} {n : Nat} (h : Safe t m str A o) : Fine (fun r => Safe t m str A r.2.2) (leadNumber t f fill n o) := by
  unfold leadNumber
  simp only
  split
  · exact h
  · refine (padLoop_fine _ (by omega) h).bind fun r hr => ?_
    exact fillLoop_fine _ (by omega) hr

theorem putNumber_fine {f : Field} {fill : Byte} {text : List Byte} (h : Safe t m str A o) : Fine (Safe t m str A) (putNumber t f fill text o) := by
  unfold putNumber
  refine (leadNumber_fine h).bind fun r hr => ?_
  refine (textLoop_fine _ hr).bind fun r hr => ?_
  exact tailLoop_fine _ hr

theorem leadString_fine {f : Field} {n : Nat} (h : Safe t m str A o) : Fine (fun r => Safe t m str A r.2.2) (leadString t f n o) := by
  unfold leadString
  simp only
  split
  · exact h
  · refine (padLoop_fine _ (by omega) h).bind fun r hr => ?_
    cases t with
    | buffer size => exact blankLoop_fine _ (by omega) hr
    | file => exact fillLoop_fine _ (by omega) hr

theorem putString_fine {f : Field} {s : Nat} (h : Safe t m str A o) : Fine (Safe t m str A) (putString t f s o) := by
  unfold putString
  refine (strlen_fine _ _).bind fun n _ => ?_
  refine (leadString_fine h).bind ?_
  rintro ⟨_, _, o'⟩ (hr : Safe t m str A o')
  refine (stringLoop_fine _ (by omega) (by have := hr.len; omega) hr).bind fun r hr => ?_
  exact tailLoop_fine _ hr

theorem putNull_fine {f : Field} (h : Safe t m str A o) : Fine (Safe t m str A) (putNull t f o) := by
  unfold putNull
  cases t with
  | buffer size =>
    refine (leadString_fine h).bind fun r hr => ?_
    exact tailLoop_fine _ hr
  | file => trivial

theorem wr_fine {m m' : Mem} {a : Nat} {b : Byte} (h : m'.length = m.length) (hf : ∀ i, ¬ A i → m'[i]? = m[i]?) (ha : A a) :
    Fine (fun m'' => m''.length = m.length ∧ ∀ i, ¬ A i → m''[i]? = m[i]?) (m'.wr a b) := by
  by_cases hl : a < m'.length
  · rw [wr_ok _ hl]
    refine ⟨by simpa using h, fun i hi => ?_⟩
    rw [getElem?_set' _ _ _ _ hl, if_neg (by rintro rfl; exact hi ha)]
    exact hf i hi
  · rw [wr_ub _ (by omega)]; trivial

theorem putCount_fine {a : Int} (h : Safe t m str A o) (ha : ∀ i : Nat, a ≤ i → i < a + 4 → A i) : Fine (Safe t m str A) (putCount a o) := by
  unfold putCount
  refine (fine_ubUnless _).bind fun _ h0 => ?_
  refine (wr_fine (A := A) rfl (fun _ _ => rfl) (ha _ (by omega) (by omega))).bind fun m1 h1 => ?_
  refine (wr_fine h1.1 h1.2 (ha _ (by omega) (by omega))).bind fun m2 h2 => ?_
  refine (wr_fine h2.1 h2.2 (ha _ (by omega) (by omega))).bind fun m3 h3 => ?_
  refine (wr_fine h3.1 h3.2 (ha _ (by omega) (by omega))).bind fun m4 h4 => ?_
  exact ⟨by rw [← h.len]; exact h4.1, h.pos, fun i hi hA => by rw [← h.frame i hi hA]; exact h4.2 i hA⟩

theorem convert_fine {w : Nat} {dt : Int → List Byte} {f : Field} {c : Byte} {p : Nat} {args : List Int} (h : Safe t m str A o)
    (ha : ∀ a ∈ args, ∀ i : Nat, a ≤ i → i < a + 4 → A i) :
    Fine (fun r => Safe t m str A r.1 ∧ p ≤ r.2.1 ∧ Tail' args r.2.2) (convert w dt t f c p args o) := by
  unfold convert
  have tail : ∀ {r : Int × List Int}, args = r.1 :: r.2 → Tail' args r.2 := fun e x h => by rw [e]; exact List.mem_cons_of_mem _ h
  split
  · exact (put_fine _ h).bind fun o' ho => ⟨ho, Nat.le_refl _, fun x h => h⟩
  split
  · refine (fine_vaArg _).bind fun r hr => ?_
    exact (putChar_fine _ h).bind fun o' ho => ⟨ho, Nat.le_refl _, tail hr⟩
  split
  · refine (fine_vaArg _).bind fun r hr => ?_
    refine numberText_fine.bind fun text _ => ?_
    exact (putNumber_fine h).bind fun o' ho => ⟨ho, Nat.le_refl _, tail hr⟩
  split
  · refine (fine_vaArg _).bind fun r hr => ?_
    simp only
    split
    · exact (putNull_fine h).bind fun o' ho => ⟨ho, Nat.le_refl _, tail hr⟩
    · refine (fine_ubUnless _).bind fun _ _ => ?_
      exact (putString_fine h).bind fun o' ho => ⟨ho, Nat.le_refl _, tail hr⟩
  split
  · refine (fine_vaArg _).bind fun r hr => ?_
    exact (putNumber_fine h).bind fun o' ho => ⟨ho, Nat.le_refl _, tail hr⟩
  split
  · refine (fine_vaArg _).bind fun r hr => ?_
    exact (putCount_fine h (ha r.1 (by rw [hr]; simp))).bind fun o' ho => ⟨ho, Nat.le_refl _, tail hr⟩
  · exact ⟨h, Nat.le_succ _, fun x h => h⟩

theorem formatLoop_fine {w : Nat} {dt : Int → List Byte} : ∀ (fuel : Nat) {p : Nat} {args : List Int} {o : Out}, 0 < fuel → m.length < fuel + p →
    Safe t m str A o → (∀ a ∈ args, ∀ i : Nat, a ≤ i → i < a + 4 → A i) → Fine (Safe t m str A) (formatLoop w dt t fuel p args o)
  | 0, _, _, _, h, _, _, _ => absurd h (by omega)
  | fuel + 1, p, args, o, _, h, hs, ha => by
    have hlen := hs.len
    rw [formatLoop]
    refine (fine_rd _ _).bind fun b hb => ?_
    split
    · exact hs
    split
    · exact (put_fine _ hs).bind fun o' ho => formatLoop_fine fuel (by omega) (by omega) ho ha
    · refine parseField_fine.bind ?_
      rintro ⟨f, c, p1, args1⟩ (hr : p + 1 ≤ p1 ∧ Tail' args args1)
      have ha' : ∀ a ∈ args1, ∀ i : Nat, a ≤ i → i < a + 4 → A i := fun a h => ha a (hr.2 a h)
      refine (convert_fine hs ha').bind ?_
      rintro ⟨o', p2, args2⟩ (hr' : Safe t m str A o' ∧ p1 ≤ p2 ∧ Tail' args1 args2)
      exact formatLoop_fine fuel (by omega) (by omega) hr'.1 fun a h => ha' a (hr'.2.2 a h)

theorem vsnprintf_fine {w : Nat} {dt : Int → List Byte} {size format : Nat} {args : List Int} :
    Fine (fun r => r.2.length = m.length ∧ (∀ i, i < str ∨ str + size ≤ i → (∀ a ∈ args, ¬ (a ≤ (i : Nat) ∧ (i : Nat) < a + 4)) → r.2[i]? = m[i]?) ∧
      ∃ n : Nat, r.1 = (n : Int) ∧ (n < size → r.2[str + n]? = some 0)) (vsnprintf w dt m str size format args) := by
  unfold vsnprintf
  refine (formatLoop_fine (t := .buffer size) (m := m) (str := str) (A := fun i => ∃ a ∈ args, a ≤ (i : Nat) ∧ (i : Nat) < a + 4) _ (by omega) (by omega) ⟨rfl, ?_, fun _ _ _ => rfl⟩
    (fun a ha i h1 h2 => ⟨a, ha, h1, h2⟩)).bind fun o ho => ?_
  · rintro _ ⟨⟩; simp
  have hp := ho.pos size rfl
  unfold terminate
  split
  · by_cases hl : o.pos < o.mem.length
    · rw [wr_ok _ hl]
      refine ⟨by simpa using ho.len, fun i hi ha => ?_, o.count, rfl, fun _ => ?_⟩
      · show (o.mem.set o.pos 0)[i]? = _
        rw [getElem?_set' _ _ _ _ hl, if_neg (by omega)]
        exact ho.frame i (by rintro _ ⟨⟩; exact hi) (by rintro ⟨a, h, h'⟩; exact ha a h h')
      · show (o.mem.set o.pos 0)[_]? = _
        rw [getElem?_set' _ _ _ _ hl, if_pos (by omega)]
    · rw [wr_ub _ (by omega)]; trivial
  · refine ⟨ho.len, fun i hi ha => ho.frame i (by rintro _ ⟨⟩; exact hi) (by rintro ⟨a, h, h'⟩; exact ha a h h'), o.count, rfl, fun h => absurd h (by assumption)⟩

theorem vfprintf_fine {w : Nat} {dt : Int → List Byte} {format : Nat} {args : List Int} :
    Fine (fun r => r.2.2.length = m.length ∧ ∀ i, (∀ a ∈ args, ¬ (a ≤ (i : Nat) ∧ (i : Nat) < a + 4)) → r.2.2[i]? = m[i]?) (vfprintf w dt m format args) := by
  unfold vfprintf
  refine (formatLoop_fine (t := .file) (m := m) (str := 0) (A := fun i => ∃ a ∈ args, a ≤ (i : Nat) ∧ (i : Nat) < a + 4) _ (by omega) (by omega) ⟨rfl, nofun, fun _ _ _ => rfl⟩
    (fun a ha i h1 h2 => ⟨a, ha, h1, h2⟩)).bind fun o ho => ?_
  exact ⟨ho.len, fun i ha => ho.frame i nofun (by rintro ⟨a, h, h'⟩; exact ha a h h')⟩

end Mes.C
