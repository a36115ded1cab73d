import Verif.Proof.MesccExpr

/-
The code of a binary operation.
-/
namespace Mes.X86
open Mes.Mescc Mes.CLang

/-! ## Signs -/

theorem ofInt_wrap {t : Ty} (ht : t = .int ∨ t = .uint) (x : Int) : BitVec.ofInt 32 (wrap t x) = BitVec.ofInt 32 x := by
  rcases ht with rfl | rfl
  · exact ofInt_wrap_int x
  · exact ofInt_wrap_uint x

theorem small_toInt {x : Int} (h : Small x) : (BitVec.ofInt 32 x).toInt = x := by
  obtain ⟨h1, h2⟩ := h
  rw [BitVec.toInt_ofInt, Int.bmod_eq_of_le] <;> omega

theorem small_toNat {x : Int} (h : Small x) : ((BitVec.ofInt 32 x).toNat : Int) = x := by
  obtain ⟨h1, h2⟩ := h
  rw [BitVec.toNat_ofInt]
  omega

theorem sign_signed {t : Ty} (ht : t = .int ∨ t = .uint) {x : Int} (h : t.signed = true ∨ Small x) :
    (BitVec.ofInt 32 x).toInt = wrap t x := by
  rcases ht with rfl | rfl
  · rw [wrap_int]
  · rcases h with h | h
    · cases h
    · rw [small_toInt h, wrap_uint, small_toNat h]

theorem sign_unsigned {t : Ty} (ht : t = .int ∨ t = .uint) {x : Int} (h : t.signed = false ∨ Small x) :
    ((BitVec.ofInt 32 x).toNat : Int) = wrap t x := by
  rcases ht with rfl | rfl
  · rcases h with h | h
    · cases h
    · rw [small_toNat h, wrap_int, small_toInt h]
  · rw [wrap_uint]

theorem wrap_eq_iff {t : Ty} (ht : t = .int ∨ t = .uint) (x y : Int) : wrap t x = wrap t y ↔ BitVec.ofInt 32 x = BitVec.ofInt 32 y := by
  constructor
  · intro h
    rw [← ofInt_wrap ht x, h, ofInt_wrap ht]
  · intro h
    rcases ht with rfl | rfl
    · rw [wrap_int, wrap_int, h]
    · rw [wrap_uint, wrap_uint, h]

theorem truth_word (b : Bool) : BitVec.ofInt 32 (truth b) = if b then 1 else 0 := by cases b <;> rfl

theorem truth_zero (b : Bool) : decide ((if b then 1 else 0 : Word) = 0) = decide (truth b = 0) := by cases b <;> rfl

theorem toInt_range (w : Word) : -2 ^ 31 ≤ w.toInt ∧ w.toInt < 2 ^ 31 := by
  have h1 := BitVec.le_toInt w
  have h2 := BitVec.toInt_lt (x := w)
  omega

/-- The conditions after `sub %ebx,%eax` on numbers with a sign. -/
theorem cc_signed (x y : Word) :
    CC.holds (subFlags x y) .l = decide (x.toInt < y.toInt) ∧ CC.holds (subFlags x y) .ge = decide (y.toInt ≤ x.toInt) ∧
    CC.holds (subFlags x y) .le = decide (x.toInt ≤ y.toInt) ∧ CC.holds (subFlags x y) .g = decide (y.toInt < x.toInt) := by
  have h1 := sub_zf x y
  have h2 := sub_slt x y
  have h3 : ((subFlags x y).sf == (subFlags x y).of) = !decide (x.toInt < y.toInt) := by rw [← h2]; simp [bne]
  have h4 : x = y ↔ x.toInt = y.toInt := ⟨fun h => by rw [h], BitVec.eq_of_toInt_eq⟩
  simp only [CC.holds, h1, h2, h3, h4]
  refine ⟨trivial, ?_, ?_, ?_⟩ <;> rw [Bool.eq_iff_iff] <;> simp <;> omega

/-- The conditions after `sub %ebx,%eax` on numbers without a sign. -/
theorem cc_unsigned (x y : Word) :
    CC.holds (subFlags x y) .b = decide ((x.toNat : Int) < y.toNat) ∧ CC.holds (subFlags x y) .ae = decide ((y.toNat : Int) ≤ x.toNat) ∧
    CC.holds (subFlags x y) .be = decide ((x.toNat : Int) ≤ y.toNat) ∧ CC.holds (subFlags x y) .a = decide ((y.toNat : Int) < x.toNat) := by
  have h1 := sub_zf x y
  have h2 := sub_cf x y
  have h4 : x = y ↔ x.toNat = y.toNat := ⟨fun h => by rw [h], BitVec.eq_of_toNat_eq⟩
  simp only [CC.holds, h1, h2, h4]
  refine ⟨?_, ?_, ?_, ?_⟩ <;> rw [Bool.eq_iff_iff] <;> simp <;> omega

/-! ## The operations -/

/-- What the flags are after a binary operation. -/
def PostB (op : Binop) (v : Int) (f : Flags) : Prop :=
  match op with
  | .lt | .le | .gt | .ge => f.zf = decide (v = 0)
  | .eq | .ne => f.zf = decide (v ≠ 0)
  | _ => True

section
variable {X : Frame} {V : Nat → Word} {T : List (List Line)} {base : Word} {L : List (String × Local)} {a b : Code} {n na nb : Nat}

theorem compare_ok (hT : CodeAt X base T.flatten) (ga : CodeGrows a) (gb : CodeGrows b) {x y : Word} {Qa Qb : Flags → Prop}
    (ha : Eok X V T base L a.reg n na x Qa) (hb : Eok X V T base L b.reg (n + 1) nb y Qb) {set : String} {c : CC} (hc : SetName set c)
    {q : Bool} (hq : CC.holds (subFlags x y) c = q) :
    Eok X V T base L (compareToR a b set) n (max na (nb + 1)) (BitVec.ofInt 32 (truth q)) (fun f => f.zf = decide (truth q = 0)) := by
  have h := binop_ok (op := r0SubR1) (Q := fun f => CC.holds f c = q) hT ga gb ha hb (fun i ds hr => r0SubR1_run hr)
    (fun f f' h => by rw [h, hq])
  intro i d m Q0 h1 h2 h3 h4 h5 h6
  subst h1
  have e1 : (appendText (binopToR a b r0SubR1 i) [ccToR set (binopToR a b r0SubR1 i)]).text <+: T := (prefix_append _).trans h5
  have e2 := (prefix_append _).trans e1
  have r1 := (binopToR_grows ga gb r0SubR1 i d.length).regs h2
  have s1 := (h i d m Q0 rfl h2 h3 h4 e2 h6).cc hT hc r1 e1
  rw [truth_word]
  refine s1.run hT (testR_run (r1.append _)) h5 (fun f f' _ hz => ?_)
  rw [hz, truth_zero]

theorem bin_ok (hT : CodeAt X base T.flatten) (ga : CodeGrows a) (gb : CodeGrows b) {x y v : Int} {Qa Qb : Flags → Prop}
    (ha : Eok X V T base L a.reg n na (BitVec.ofInt 32 x) Qa) (hb : Eok X V T base L b.reg (n + 1) nb (BitVec.ofInt 32 y) Qb)
    {op : Binop} {fx : Option Const} (hfx : ∀ c, fx = some c → y = c.value) {signedA unsigned : Bool} {t t' : Ty}
    (ht : t = .int ∨ t = .uint)
    (hv : (if op.isShift then shift (op = .shl) t' x y else binop op t (wrap t x) (wrap t y)) = some v) (hx : Bounded x)
    (hne : op = .ne → n = 0) (hdiv : op.isDivision → signedA = t.signed ∨ (Small x ∧ Small y))
    (hord : op.isOrder → (!unsigned) = t.signed ∨ (Small x ∧ Small y)) :
    Eok X V T base L (fun i => binToRegister op a b fx i signedA unsigned) n (max na (nb + 1)) (BitVec.ofInt 32 v) (PostB op v) := by
  have hd0 : op.isDivision → signedA = true → (BitVec.ofInt 32 x).toInt = wrap t x ∧ (BitVec.ofInt 32 y).toInt = wrap t y := fun h hs => by
    rcases hdiv h with h | ⟨h, h'⟩
    · exact ⟨sign_signed ht (.inl (by rw [← h, hs])), sign_signed ht (.inl (by rw [← h, hs]))⟩
    · exact ⟨sign_signed ht (.inr h), sign_signed ht (.inr h')⟩
  have hd1 : op.isDivision → signedA = false →
      ((BitVec.ofInt 32 x).toNat : Int) = wrap t x ∧ ((BitVec.ofInt 32 y).toNat : Int) = wrap t y := fun h hs => by
    rcases hdiv h with h | ⟨h, h'⟩
    · exact ⟨sign_unsigned ht (.inl (by rw [← h, hs])), sign_unsigned ht (.inl (by rw [← h, hs]))⟩
    · exact ⟨sign_unsigned ht (.inr h), sign_unsigned ht (.inr h')⟩
  have ho0 : op.isOrder → unsigned = false → (BitVec.ofInt 32 x).toInt = wrap t x ∧ (BitVec.ofInt 32 y).toInt = wrap t y := fun h hs => by
    rcases hord h with h | ⟨h, h'⟩
    · exact ⟨sign_signed ht (.inl (by rw [← h, hs]; rfl)), sign_signed ht (.inl (by rw [← h, hs]; rfl))⟩
    · exact ⟨sign_signed ht (.inr h), sign_signed ht (.inr h')⟩
  have ho1 : op.isOrder → unsigned = true →
      ((BitVec.ofInt 32 x).toNat : Int) = wrap t x ∧ ((BitVec.ofInt 32 y).toNat : Int) = wrap t y := fun h hs => by
    rcases hord h with h | ⟨h, h'⟩
    · exact ⟨sign_unsigned ht (.inl (by rw [← h, hs]; rfl)), sign_unsigned ht (.inl (by rw [← h, hs]; rfl))⟩
    · exact ⟨sign_unsigned ht (.inr h), sign_unsigned ht (.inr h')⟩
  -- the bounds of a quotient with a sign
  have hquo : ∀ q, op.isDivision → signedA = true → arith t ((wrap t x).tdiv (wrap t y)) = some q →
      -2 ^ 31 ≤ (wrap t x).tdiv (wrap t y) ∧ (wrap t x).tdiv (wrap t y) < 2 ^ 31 := fun q h hs ha => by
    rcases hdiv h with h1 | ⟨h1, h2⟩
    · unfold arith at ha
      rw [if_pos (by rw [← h1, hs])] at ha
      split at ha
      · assumption
      · cases ha
    · obtain ⟨e1, e2⟩ := hd0 h hs
      rw [← e1, ← e2, small_toInt h1, small_toInt h2]
      have g1 := Int.tdiv_nonneg h1.1 h2.1
      have g2 := Int.tdiv_le_self y h1.1
      have := h1.2
      omega
  cases op
  case add =>
    have e : BitVec.ofInt 32 v = BitVec.ofInt 32 x + BitVec.ofInt 32 y := by
      rw [arith_word hv, BitVec.ofInt_add, ofInt_wrap ht, ofInt_wrap ht]
    rw [e]
    cases fx with
    | none => exact binop_ok hT ga gb ha hb (fun i ds hr => r0AddR1_run hr) (fun _ _ _ => trivial)
    | some c =>
      rw [hfx c rfl]
      exact (Eok.then hT ha ga.reg (fun i d hr => rAddValue_run hr c.value) (fun _ _ _ _ => trivial)).more (by omega)
  case sub =>
    have e : BitVec.ofInt 32 v = BitVec.ofInt 32 x - BitVec.ofInt 32 y := by
      rw [arith_word hv, Int.sub_eq_add_neg, BitVec.ofInt_add, BitVec.ofInt_neg, ofInt_wrap ht, ofInt_wrap ht, BitVec.sub_eq_add_neg]
    rw [e]
    cases fx with
    | none => exact binop_ok hT ga gb ha hb (fun i ds hr => r0SubR1_run hr) (fun _ _ _ => trivial)
    | some c =>
      rw [hfx c rfl, BitVec.sub_eq_add_neg, ← BitVec.ofInt_neg]
      exact (Eok.then hT ha ga.reg (fun i d hr => rAddValue_run hr (-c.value)) (fun _ _ _ _ => trivial)).more (by omega)
  case mul =>
    have e : BitVec.ofInt 32 v = BitVec.ofInt 32 x * BitVec.ofInt 32 y := by
      rw [arith_word hv, BitVec.ofInt_mul, ofInt_wrap ht, ofInt_wrap ht]
    rw [e]
    cases fx <;> exact binop_ok hT ga gb ha hb (fun i ds hr => r0MulR1_run hr) (fun _ _ _ => trivial)
  case and =>
    have e : BitVec.ofInt 32 v = BitVec.ofInt 32 x &&& BitVec.ofInt 32 y := by
      cases hv; rw [ofBits_word, ofInt_wrap ht, ofInt_wrap ht]
    rw [e]
    cases fx <;> exact binop_ok hT ga gb ha hb (fun i ds hr => r0AndR1_run hr) (fun _ _ _ => trivial)
  case or =>
    have e : BitVec.ofInt 32 v = BitVec.ofInt 32 x ||| BitVec.ofInt 32 y := by
      cases hv; rw [ofBits_word, ofInt_wrap ht, ofInt_wrap ht]
    rw [e]
    cases fx <;> exact binop_ok hT ga gb ha hb (fun i ds hr => r0OrR1_run hr) (fun _ _ _ => trivial)
  case xor =>
    have e : BitVec.ofInt 32 v = BitVec.ofInt 32 x ^^^ BitVec.ofInt 32 y := by
      cases hv; rw [ofBits_word, ofInt_wrap ht, ofInt_wrap ht]
    rw [e]
    cases fx <;> exact binop_ok hT ga gb ha hb (fun i ds hr => r0XorR1_run hr) (fun _ _ _ => trivial)
  case shl =>
    have hv : shift true t' x y = some v := hv
    unfold shift at hv
    split at hv
    · cases hv
    · split at hv
      · cases hv
      · have e : BitVec.ofInt 32 v = BitVec.ofInt 32 x <<< (((BitVec.ofInt 32 y).extractLsb' 0 8).toNat % 32) := by
          rw [lo8_count (by omega) (by omega), shl_word (by omega)]
          exact arith_word hv
        rw [e]
        cases fx <;> exact binop_ok hT ga gb ha hb (fun i ds hr => r0ShlR1_run hr) (fun _ _ _ => trivial)
  case shr =>
    have hv : shift false t' x y = some v := hv
    unfold shift at hv
    split at hv
    · cases hv
    · split at hv
      · cases hv
      · have e : BitVec.ofInt 32 v = BitVec.ofInt 32 x >>> (((BitVec.ofInt 32 y).extractLsb' 0 8).toNat % 32) := by
          rw [lo8_count (by omega) (by omega), shr_word (by omega) hx]
          cases hv; rfl
        rw [e]
        cases fx <;> exact binop_ok hT ga gb ha hb (fun i ds hr => r0ShrR1_run hr) (fun _ _ _ => trivial)
  case div =>
    have hv : (if wrap t y = 0 then none else arith t ((wrap t x).tdiv (wrap t y))) = some v := hv
    split at hv
    · cases hv
    · rename_i h0
      rw [arith_word hv]
      cases hs : signedA with
      | true =>
        obtain ⟨e1, e2⟩ := hd0 rfl hs
        have hq := hquo v rfl hs hv
        rw [← e1, ← e2]
        cases fx <;> exact binop_ok hT ga gb ha hb (fun i ds hr => r0DivR1_signed hr (by rw [e2]; exact h0) (by rw [e1, e2]; exact hq)) (fun _ _ _ => trivial)
      | false =>
        obtain ⟨e1, e2⟩ := hd1 rfl hs
        have e : BitVec.ofInt 32 ((wrap t x).tdiv (wrap t y)) = BitVec.ofNat 32 ((BitVec.ofInt 32 x).toNat / (BitVec.ofInt 32 y).toNat) := by
          rw [← ofInt_natCast, Int.ofNat_tdiv, e1, e2]
        rw [e]
        cases fx <;> exact binop_ok hT ga gb ha hb (fun i ds hr => r0DivR1_unsigned hr (by omega)) (fun _ _ _ => trivial)
  case mod =>
    have hv : (if wrap t y = 0 then none else (do let _ ← arith t ((wrap t x).tdiv (wrap t y)); some ((wrap t x).tmod (wrap t y)))) = some v := hv
    split at hv
    · cases hv
    · rename_i h0
      obtain ⟨q, hq, hv⟩ := Option.bind_eq_some_iff.1 hv
      cases hv
      cases hs : signedA with
      | true =>
        obtain ⟨e1, e2⟩ := hd0 rfl hs
        have hq := hquo q rfl hs hq
        rw [← e1, ← e2]
        cases fx <;> exact binop_ok hT ga gb ha hb (fun i ds hr => r0ModR1_signed hr (by rw [e2]; exact h0) (by rw [e1, e2]; exact hq)) (fun _ _ _ => trivial)
      | false =>
        obtain ⟨e1, e2⟩ := hd1 rfl hs
        have e : BitVec.ofInt 32 ((wrap t x).tmod (wrap t y)) = BitVec.ofNat 32 ((BitVec.ofInt 32 x).toNat % (BitVec.ofInt 32 y).toNat) := by
          rw [← ofInt_natCast, Int.ofNat_tmod, e1, e2]
        rw [e]
        cases fx <;> exact binop_ok hT ga gb ha hb (fun i ds hr => r0ModR1_unsigned hr (by omega)) (fun _ _ _ => trivial)
  case eq =>
    have hv : some (truth (wrap t x = wrap t y)) = some v := hv
    cases hv
    have e : decide (wrap t x = wrap t y) = decide (BitVec.ofInt 32 x = BitVec.ofInt 32 y) := by
      rw [decide_eq_decide]; exact wrap_eq_iff ht x y
    have h := binop_ok (op := r0SubR1) (Q := fun f => CC.holds f .e = decide (wrap t x = wrap t y)) hT ga gb ha hb
      (fun i ds hr => r0SubR1_run hr) (fun f f' h => by rw [h, e]; exact sub_zf _ _)
    have key : Eok X V T base L (fun i => appendText (binopToR a b r0SubR1 i) [zfToR (binopToR a b r0SubR1 i)]) n (max na (nb + 1))
        (BitVec.ofInt 32 (truth (wrap t x = wrap t y))) (PostB .eq (truth (wrap t x = wrap t y))) := by
      intro i d m Q0 h1 h2 h3 h4 h5 h6
      subst h1
      have r1 := (binopToR_grows ga gb r0SubR1 i d.length).regs h2
      rw [truth_word]
      refine ((h i d m Q0 rfl h2 h3 h4 ((prefix_append _).trans h5) h6).cc hT .e r1 h5).weak (fun f hf => ?_)
      show f.zf = _
      rw [show f.zf = _ from hf]
      cases decide (wrap t x = wrap t y) <;> rfl
    cases fx <;> exact key
  case ne =>
    have hv : some (truth (wrap t x ≠ wrap t y)) = some v := hv
    cases hv
    have hn := hne rfl
    subst hn
    have e : decide (wrap t x ≠ wrap t y) = !decide (BitVec.ofInt 32 x - BitVec.ofInt 32 y = 0) := by
      rw [decide_not]
      congr 1
      rw [decide_eq_decide, wrap_eq_iff ht x y]
      constructor
      · intro h; rw [h, BitVec.sub_self]; rfl
      · intro h; exact BitVec.sub_eq_iff_eq_add.1 h |>.trans (by simp)
    have h := binop_ok (op := r0SubR1) (Q := fun _ => True) hT ga gb ha hb (fun i ds hr => r0SubR1_run hr) (fun f f' h => trivial)
    have key : Eok X V T base L (fun i =>
        let i := binopToR a b r0SubR1 i
        let i := appendText i [testR i]
        let i := appendText i [xorZf]
        appendText i [zfToR i]) 0 (max na (nb + 1))
        (BitVec.ofInt 32 (truth (wrap t x ≠ wrap t y))) (PostB .ne (truth (wrap t x ≠ wrap t y))) := by
      intro i d m Q0 h1 h2 h3 h4 h5 h6
      have hd : d = [] := List.length_eq_zero_iff.1 h1
      subst hd
      have r1 := (binopToR_grows ga gb r0SubR1 i 0).regs h2
      have e1 := (prefix_append _).trans h5
      have e2 := (prefix_append _).trans e1
      have e3 := (prefix_append _).trans e2
      have s1 := h i [] m Q0 rfl h2 h3 h4 e3 h6
      have s2 := s1.run hT (testR_run (d := []) r1) e2 (R := fun f => f.zf = decide (BitVec.ofInt 32 x - BitVec.ofInt 32 y = 0)) (fun f f' _ hz => hz)
      obtain ⟨m', g1, g2, g3, g4⟩ := s2
      obtain ⟨f, hf⟩ := xorZf_run (X := X) (V := V) (v := BitVec.ofInt 32 x - BitVec.ofInt 32 y)
      obtain ⟨m'', k1, k2, k3, k4⟩ := hf m' g3 (here_of hT e1 g2 g3.prot)
      have s3 : Reach X V base m (appendText (appendText (binopToR a b r0SubR1 i) [testR (binopToR a b r0SubR1 i)]) [xorZf])
          [f (BitVec.ofInt 32 x - BitVec.ofInt 32 y) m'.flags] (fun f => CC.holds f .e = decide (wrap t x ≠ wrap t y)) :=
        ⟨m'', g1.trans k1, by rw [k2, g2]; exact (pos_append ..).symm, k3, by show m''.flags.zf = _; rw [k4, g4, e]⟩
      rw [truth_word]
      refine (s3.cc hT .e ((r1.append _).append _) h5).weak (fun f hf => ?_)
      show f.zf = _
      rw [show f.zf = _ from hf]
      cases decide (wrap t x ≠ wrap t y) <;> rfl
    cases fx <;> exact key
  case lt =>
    have hv : some (truth (wrap t x < wrap t y)) = some v := hv
    cases hv
    cases hu : unsigned with
    | false =>
      obtain ⟨e1, e2⟩ := ho0 rfl hu
      cases fx <;> exact compare_ok hT ga gb ha hb .l (by rw [(cc_signed _ _).1, e1, e2])
    | true =>
      obtain ⟨e1, e2⟩ := ho1 rfl hu
      cases fx <;> exact compare_ok hT ga gb ha hb .b (by rw [(cc_unsigned _ _).1, e1, e2])
  case ge =>
    have hv : some (truth (wrap t y ≤ wrap t x)) = some v := hv
    cases hv
    cases hu : unsigned with
    | false =>
      obtain ⟨e1, e2⟩ := ho0 rfl hu
      cases fx <;> exact compare_ok hT ga gb ha hb .ge (by rw [(cc_signed _ _).2.1, e1, e2])
    | true =>
      obtain ⟨e1, e2⟩ := ho1 rfl hu
      cases fx <;> exact compare_ok hT ga gb ha hb .ae (by rw [(cc_unsigned _ _).2.1, e1, e2])
  case le =>
    have hv : some (truth (wrap t x ≤ wrap t y)) = some v := hv
    cases hv
    cases hu : unsigned with
    | false =>
      obtain ⟨e1, e2⟩ := ho0 rfl hu
      cases fx <;> exact compare_ok hT ga gb ha hb .le (by rw [(cc_signed _ _).2.2.1, e1, e2])
    | true =>
      obtain ⟨e1, e2⟩ := ho1 rfl hu
      cases fx <;> exact compare_ok hT ga gb ha hb .be (by rw [(cc_unsigned _ _).2.2.1, e1, e2])
  case gt =>
    have hv : some (truth (wrap t y < wrap t x)) = some v := hv
    cases hv
    cases hu : unsigned with
    | false =>
      obtain ⟨e1, e2⟩ := ho0 rfl hu
      cases fx <;> exact compare_ok hT ga gb ha hb .g (by rw [(cc_signed _ _).2.2.2, e1, e2])
    | true =>
      obtain ⟨e1, e2⟩ := ho1 rfl hu
      cases fx <;> exact compare_ok hT ga gb ha hb .a (by rw [(cc_unsigned _ _).2.2.2, e1, e2])

end

end Mes.X86
