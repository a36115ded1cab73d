import Verif.Proof.X64Ops
/- C81: what the functions of /repo/module/mescc/x86_64/as.scm do with the registers. -/
namespace Mes.Props
open Mes.X64 Mes.Mescc

/-- The operations on two registers. -/
theorem C81_binary (mesc : Bool) (i : Alloc) (h : Reach i) (ha : i.allocated = ["rdi", "rax"]) (f : Fn64) (g : Quad → Quad → Quad) (ks : List Nat)
    (hf : binary f = some (g, ks)) (s : Regs) :
    ∃ s', Code mesc i f s s' ∧ s'.reg 0 = g (s.reg 0) (s.reg 7) ∧ s.Same (0 :: ks) s' := by
  have hr := h.two ha
  have L : ∀ {is : List Instr} {s' : Regs}, listing (f.names "rdi" "rax" "rdi" "rsi") = some is → execAll is s = some s' → Code mesc i f s s' :=
    fun h1 h2 => code_of (by rw [ha, hr]; exact h1) h2
  cases f <;> simp only [binary, Option.some.injEq, Prod.mk.injEq, reduceCtorEq] at hf
  all_goals obtain ⟨rfl, rfl⟩ := hf
  · refine ⟨_, L (is := [⟨.mul, .q, [.reg .q 7]⟩]) (by decide +kernel) rfl, ?_, fun k hk => ?_⟩
    · exact ofNat_mul _ _
    · simp only [List.mem_cons, List.not_mem_nil, or_false, not_or] at hk
      exact (put_other _ hk.2 _).trans (put_other _ hk.1 _)
  · exact ⟨_, L (is := [⟨.alu 0, .q, [.reg .q 7, .reg .q 0]⟩]) (by decide +kernel) rfl, rfl, fun k hk => put_other _ (by simpa using hk) _⟩
  · exact ⟨_, L (is := [⟨.alu 4, .q, [.reg .q 7, .reg .q 0]⟩]) (by decide +kernel) rfl, rfl, fun k hk => put_other _ (by simpa using hk) _⟩
  · exact ⟨_, L (is := [⟨.alu 1, .q, [.reg .q 7, .reg .q 0]⟩]) (by decide +kernel) rfl, rfl, fun k hk => put_other _ (by simpa using hk) _⟩
  · exact ⟨_, L (is := [⟨.alu 5, .q, [.reg .q 7, .reg .q 0]⟩]) (by decide +kernel) rfl, rfl, fun k hk => put_other _ (by simpa using hk) _⟩
  · exact ⟨_, L (is := [⟨.alu 6, .q, [.reg .q 7, .reg .q 0]⟩]) (by decide +kernel) rfl, rfl, fun k hk => put_other _ (by simpa using hk) _⟩
  · refine ⟨_, L (is := [⟨.mov, .q, [.reg .q 7, .reg .q 1]⟩, ⟨.shl, .q, [.reg .b 1, .reg .q 0]⟩]) (by decide +kernel) rfl, ?_, fun k hk => ?_⟩
    · show s.reg 0 <<< ((s.reg 7).toNat % 256 % 64) = _
      rw [mod_cl]
    · simp only [List.mem_cons, List.not_mem_nil, or_false, not_or] at hk
      exact (put_other _ hk.1 _).trans (put_other _ hk.2 _)
  · refine ⟨_, L (is := [⟨.mov, .q, [.reg .q 7, .reg .q 1]⟩, ⟨.shr, .q, [.reg .b 1, .reg .q 0]⟩]) (by decide +kernel) rfl, ?_, fun k hk => ?_⟩
    · show s.reg 0 >>> ((s.reg 7).toNat % 256 % 64) = _
      rw [mod_cl]
    · simp only [List.mem_cons, List.not_mem_nil, or_false, not_or] at hk
      exact (put_other _ hk.1 _).trans (put_other _ hk.2 _)
  · exact ⟨_, L (is := [⟨.mov, .q, [.reg .q 7, .reg .q 0]⟩]) (by decide +kernel) rfl, rfl, fun k hk => put_other _ (by simpa using hk) _⟩

/-- One instruction that changes the register `r` only. -/
theorem unary_of {mesc : Bool} {i : Alloc} (h : Reach i) {f : Fn64} {s : Regs} {g : Quad → Quad} {is0 is7 : List Instr}
    (h0 : listing (f.names "rax" "" "" "rax") = some is0) (h1 : listing (f.names "rax" "" "rax" "rdi") = some is0)
    (h2 : listing (f.names "rdi" "rax" "rdi" "rsi") = some is7) (e0 : ∃ c, execAll is0 s = some { s.put 0 (g (s.reg 0)) with compared := c })
    (e7 : ∃ c, execAll is7 s = some { s.put 7 (g (s.reg 7)) with compared := c }) :
    ∃ s', Code mesc i f s s' ∧ s'.reg (current i) = g (s.reg (current i)) ∧ s.Same [current i] s' := by
  rcases h.current h0 h1 h2 with ⟨hc, hl⟩ | ⟨hc, hl⟩
  · obtain ⟨c, e⟩ := e0
    exact ⟨_, code_of hl e, by rw [hc]; rfl, fun k hk => put_other _ (by rw [hc] at hk; simpa using hk) _⟩
  · obtain ⟨c, e⟩ := e7
    exact ⟨_, code_of hl e, by rw [hc]; rfl, fun k hk => put_other _ (by rw [hc] at hk; simpa using hk) _⟩

/-- The operations on one register, with any number of registers allocated. -/
theorem C81_unary (mesc : Bool) (i : Alloc) (h : Reach i) (f : Fn64) (g : Quad → Quad) (hf : unary f = some g) (s : Regs) :
    ∃ s', Code mesc i f s s' ∧ s'.reg (current i) = g (s.reg (current i)) ∧ s.Same [current i] s' := by
  cases f <;> simp only [unary, Option.some.injEq, reduceCtorEq] at hf
  · refine unary_of h (f := .byteR) (g := g) (is0 := [⟨.movzx .b, .q, [.reg .b 0, .reg .q 0]⟩]) (is7 := [⟨.movzx .b, .q, [.reg .b 7, .reg .q 7]⟩]) (by decide +kernel)
      (by decide +kernel) (by decide +kernel) ⟨s.compared, ?_⟩ ⟨s.compared, ?_⟩ <;> subst hf <;> dsimp only <;> rw [← zero_extend _ (by decide)] <;> rfl
  · refine unary_of h (f := .byteSignedR) (g := g) (is0 := [⟨.movsx .b, .q, [.reg .b 0, .reg .q 0]⟩]) (is7 := [⟨.movsx .b, .q, [.reg .b 7, .reg .q 7]⟩]) (by decide +kernel)
      (by decide +kernel) (by decide +kernel) ⟨s.compared, ?_⟩ ⟨s.compared, ?_⟩ <;> subst hf <;> dsimp only <;> rw [← sign_extend _ (by decide)] <;> rfl
  · refine unary_of h (f := .longR) (g := g) (is0 := [⟨.mov, .l, [.reg .l 0, .reg .l 0]⟩]) (is7 := [⟨.mov, .l, [.reg .l 7, .reg .l 7]⟩]) (by decide +kernel)
      (by decide +kernel) (by decide +kernel) ⟨s.compared, ?_⟩ ⟨s.compared, ?_⟩ <;> subst hf <;> dsimp only <;> rw [← zero_extend _ (by decide)] <;> rfl
  · refine unary_of h (f := .longSignedR) (g := g) (is0 := [⟨.movsx .l, .q, [.reg .l 0, .reg .q 0]⟩]) (is7 := [⟨.movsx .l, .q, [.reg .l 7, .reg .q 7]⟩]) (by decide +kernel)
      (by decide +kernel) (by decide +kernel) ⟨s.compared, ?_⟩ ⟨s.compared, ?_⟩ <;> subst hf <;> dsimp only <;> rw [← sign_extend _ (by decide)] <;> rfl
  · refine unary_of h (f := .notR) (g := g) (is0 := [⟨.not, .q, [.reg .q 0]⟩]) (is7 := [⟨.not, .q, [.reg .q 7]⟩]) (by decide +kernel) (by decide +kernel) (by decide +kernel)
      ⟨s.compared, ?_⟩ ⟨s.compared, ?_⟩ <;> subst hf <;> rfl
  · refine unary_of h (f := .rAddR) (g := g) (is0 := [⟨.alu 0, .q, [.reg .q 0, .reg .q 0]⟩]) (is7 := [⟨.alu 0, .q, [.reg .q 7, .reg .q 7]⟩]) (by decide +kernel)
      (by decide +kernel) (by decide +kernel) ⟨none, ?_⟩ ⟨none, ?_⟩ <;> subst hf <;> dsimp only <;> rw [double] <;> rfl
  · refine unary_of h (f := .wordR) (g := g) (is0 := [⟨.movzx .w, .q, [.reg .w 0, .reg .q 0]⟩]) (is7 := [⟨.movzx .w, .q, [.reg .w 7, .reg .q 7]⟩]) (by decide +kernel)
      (by decide +kernel) (by decide +kernel) ⟨s.compared, ?_⟩ ⟨s.compared, ?_⟩ <;> subst hf <;> dsimp only <;> rw [← zero_extend _ (by decide)] <;> rfl
  · refine unary_of h (f := .wordSignedR) (g := g) (is0 := [⟨.movsx .w, .q, [.reg .w 0, .reg .q 0]⟩]) (is7 := [⟨.movsx .w, .q, [.reg .w 7, .reg .q 7]⟩]) (by decide +kernel)
      (by decide +kernel) (by decide +kernel) ⟨s.compared, ?_⟩ ⟨s.compared, ?_⟩ <;> subst hf <;> dsimp only <;> rw [← sign_extend _ (by decide)] <;> rfl

/-- The subtraction compares as well. -/
theorem C81_compare (mesc : Bool) (i : Alloc) (h : Reach i) (ha : i.allocated = ["rdi", "rax"]) (s : Regs) :
    ∃ s', Code mesc i .r0SubR1 s s' ∧ s'.compared = some (s.reg 0, s.reg 7) ∧ s'.reg 0 = s.reg 0 - s.reg 7 ∧ s.Same [0] s' := by
  have hr := h.two ha
  exact ⟨_, code_of (is := [⟨.alu 5, .q, [.reg .q 7, .reg .q 0]⟩]) (by rw [ha, hr]; decide +kernel) rfl, rfl, rfl, fun k hk => put_other _ (by simpa using hk) _⟩

/-- The tests compare with 0 and change no register. -/
theorem C81_test (mesc : Bool) (i : Alloc) (h : Reach i) (f : Fn64) (hf : f = .rZero ∨ f = .testR) (s : Regs) :
    ∃ s', Code mesc i f s s' ∧ s'.compared = some (s.reg (current i), 0) ∧ s'.reg = s.reg := by
  have key : ∀ (h0 : listing (f.names "rax" "" "" "rax") = some [⟨.test, .q, [.reg .q 0, .reg .q 0]⟩])
      (h1 : listing (f.names "rax" "" "rax" "rdi") = some [⟨.test, .q, [.reg .q 0, .reg .q 0]⟩])
      (h2 : listing (f.names "rdi" "rax" "rdi" "rsi") = some [⟨.test, .q, [.reg .q 7, .reg .q 7]⟩]),
      ∃ s', Code mesc i f s s' ∧ s'.compared = some (s.reg (current i), 0) ∧ s'.reg = s.reg := by
    intro h0 h1 h2
    rcases h.current h0 h1 h2 with ⟨hc, hl⟩ | ⟨hc, hl⟩
    · refine ⟨_, code_of hl rfl, ?_, rfl⟩
      show some (s.reg 0 &&& s.reg 0, _) = _
      rw [hc, BitVec.and_self]
    · refine ⟨_, code_of hl rfl, ?_, rfl⟩
      show some (s.reg 7 &&& s.reg 7, _) = _
      rw [hc, BitVec.and_self]
  rcases hf with rfl | rfl
  · exact key (by decide +kernel) (by decide +kernel) (by decide +kernel)
  · exact key (by decide +kernel) (by decide +kernel) (by decide +kernel)

/-- The lines of a condition. -/
theorem truth_of {mesc : Bool} {i : Alloc} (h : Reach i) {f : Fn64} {s : Regs} {x y : Quad} {p : Prop} [Decidable p] (c : Nat)
    (h0 : listing (f.names "rax" "" "" "rax") = some [⟨.set c, .b, [.reg .b 0]⟩, ⟨.movzx .b, .q, [.reg .b 0, .reg .q 0]⟩])
    (h1 : listing (f.names "rax" "" "rax" "rdi") = some [⟨.set c, .b, [.reg .b 0]⟩, ⟨.movzx .b, .q, [.reg .b 0, .reg .q 0]⟩])
    (h2 : listing (f.names "rdi" "rax" "rdi" "rsi") = some [⟨.set c, .b, [.reg .b 7]⟩, ⟨.movzx .b, .q, [.reg .b 7, .reg .q 7]⟩])
    (hs : s.compared = some (x, y)) (hp : condition c x y = some (decide p)) :
    ∃ s', Code mesc i f s s' ∧ s'.reg (current i) = (if p then 1 else 0) ∧ s.Same [current i] s' ∧ s'.compared = s.compared := by
  have key : ∀ n, listing (f.lines i.allocated i.registers) = some [⟨.set c, .b, [.reg .b n]⟩, ⟨.movzx .b, .q, [.reg .b n, .reg .q n]⟩] → current i = n →
      ∃ s', Code mesc i f s s' ∧ s'.reg (current i) = (if p then 1 else 0) ∧ s.Same [current i] s' ∧ s'.compared = s.compared := by
    intro n hl hc
    rw [hc]
    have e : execAll [⟨.set c, .b, [.reg .b n]⟩, ⟨.movzx .b, .q, [.reg .b n, .reg .q n]⟩] s =
        some ((s.putByte n (if decide p then 1 else 0)).put n ((((s.putByte n (if decide p then 1 else 0)).reg n).setWidth 8).setWidth 64)) := by
      simp only [execAll, exec, hs, hp, Option.bind_some, Option.map_some]
    refine ⟨_, code_of hl e, ?_, fun k hk => ?_, rfl⟩
    · rw [put_reg, Regs.putByte, put_reg, low_byte]
      by_cases hpp : p
      · simp [hpp]
      · simp [hpp]
    · have hk : k ≠ n := by simpa using hk
      rw [put_other _ hk, Regs.putByte, put_other _ hk]
  rcases h.current h0 h1 h2 with ⟨hc, hl⟩ | ⟨hc, hl⟩
  · exact key 0 hl hc
  · exact key 7 hl hc

/-- A condition of the last comparison in a register: 1 or 0. -/
theorem C81_truth (mesc : Bool) (i : Alloc) (h : Reach i) (f : Fn64) (g : Quad → Quad → Prop) (hf : truth f = some g) (s : Regs) (x y : Quad)
    (hs : s.compared = some (x, y)) :
    ∃ s', Code mesc i f s s' ∧ (g x y → s'.reg (current i) = 1) ∧ (¬ g x y → s'.reg (current i) = 0) ∧ s.Same [current i] s' ∧
      s'.compared = s.compared := by
  have fin : ∀ (p : Prop) [Decidable p], g x y = p →
      (∃ s', Code mesc i f s s' ∧ s'.reg (current i) = (if p then 1 else 0) ∧ s.Same [current i] s' ∧ s'.compared = s.compared) →
      ∃ s', Code mesc i f s s' ∧ (g x y → s'.reg (current i) = 1) ∧ (¬ g x y → s'.reg (current i) = 0) ∧ s.Same [current i] s' ∧
        s'.compared = s.compared := by
    intro p _ hg ⟨s', h1, h2, h3, h4⟩
    rw [hg]
    exact ⟨s', h1, fun hp => by rw [h2, if_pos hp], fun hp => by rw [h2, if_neg hp], h3, h4⟩
  cases f <;> simp only [truth, Option.some.injEq, reduceCtorEq] at hf
  all_goals subst hf
  · exact fin (y.toNat < x.toNat) rfl (truth_of h 7 (by decide +kernel) (by decide +kernel) (by decide +kernel) hs rfl)
  · exact fin (y.toNat ≤ x.toNat) rfl (truth_of h 3 (by decide +kernel) (by decide +kernel) (by decide +kernel) hs rfl)
  · exact fin (x.toNat < y.toNat) rfl (truth_of h 2 (by decide +kernel) (by decide +kernel) (by decide +kernel) hs rfl)
  · exact fin (x.toNat ≤ y.toNat) rfl (truth_of h 6 (by decide +kernel) (by decide +kernel) (by decide +kernel) hs rfl)
  · exact fin (y.toInt < x.toInt) rfl (truth_of h 15 (by decide +kernel) (by decide +kernel) (by decide +kernel) hs rfl)
  · exact fin (y.toInt ≤ x.toInt) rfl (truth_of h 13 (by decide +kernel) (by decide +kernel) (by decide +kernel) hs rfl)
  · exact fin (x.toInt < y.toInt) rfl (truth_of h 12 (by decide +kernel) (by decide +kernel) (by decide +kernel) hs rfl)
  · exact fin (x.toInt ≤ y.toInt) rfl (truth_of h 14 (by decide +kernel) (by decide +kernel) (by decide +kernel) hs rfl)
  · exact fin (x = y) rfl (truth_of h 4 (by decide +kernel) (by decide +kernel) (by decide +kernel) hs rfl)
  · exact fin (x = y) rfl (truth_of h 4 (by decide +kernel) (by decide +kernel) (by decide +kernel) hs rfl)

/-- Division and remainder without sign. -/
theorem C81_div (mesc : Bool) (i : Alloc) (h : Reach i) (ha : i.allocated = ["rdi", "rax"]) (s : Regs) (hd : s.reg 7 ≠ 0) :
    (∃ s', Code mesc i (.r0DivR1 false) s s' ∧ s'.reg 0 = s.reg 0 / s.reg 7 ∧ s.Same [0, 2] s') ∧
      ∃ s', Code mesc i (.r0ModR1 false) s s' ∧ s'.reg 0 = s.reg 0 % s.reg 7 ∧ s.Same [0, 2] s' := by
  have hr := h.two ha
  have z : execAll [⟨.alu 6, .q, [.reg .q 2, .reg .q 2]⟩, ⟨.div, .q, [.reg .q 7]⟩] s =
      some { ((s.put 2 (s.reg 2 ^^^ s.reg 2)).put 0 (s.reg 0 / s.reg 7)).put 2 (s.reg 0 % s.reg 7) with compared := none } := by
    have := divide_zero (s := { s.put 2 (s.reg 2 ^^^ s.reg 2) with compared := none }) (d := s.reg 7) (by show s.reg 2 ^^^ s.reg 2 = 0; exact BitVec.xor_self) hd
    show (divide { s.put 2 (s.reg 2 ^^^ s.reg 2) with compared := none } (s.reg 7)).bind _ = _
    rw [this]
    rfl
  refine ⟨⟨_, code_of (by rw [ha, hr]; decide +kernel) z, rfl, fun k hk => ?_⟩,
    ⟨_, code_of (is := [⟨.alu 6, .q, [.reg .q 2, .reg .q 2]⟩, ⟨.div, .q, [.reg .q 7]⟩] ++ [⟨.mov, .q, [.reg .q 2, .reg .q 0]⟩]) (by rw [ha, hr]; decide +kernel)
      (execAll_append z rfl), rfl, fun k hk => ?_⟩⟩
  · simp only [List.mem_cons, List.not_mem_nil, or_false, not_or] at hk
    exact (put_other _ hk.2 _).trans ((put_other _ hk.1 _).trans (put_other _ hk.2 _))
  · simp only [List.mem_cons, List.not_mem_nil, or_false, not_or] at hk
    exact (put_other _ hk.1 _).trans ((put_other _ hk.2 _).trans ((put_other _ hk.1 _).trans (put_other _ hk.2 _)))

/-- Division and remainder with sign, as in C: towards 0.  The quotient of the least number and -1 does not fit. -/
theorem C81_div_signed (mesc : Bool) (i : Alloc) (h : Reach i) (ha : i.allocated = ["rdi", "rax"]) (s : Regs) (hd : s.reg 7 ≠ 0)
    (hn : ¬ ((s.reg 0).toInt = -9223372036854775808 ∧ (s.reg 7).toInt = -1)) :
    (∃ s', Code mesc i (.r0DivR1 true) s s' ∧ (s'.reg 0).toInt = (s.reg 0).toInt.tdiv (s.reg 7).toInt ∧ s.Same [0, 2] s') ∧
      ∃ s', Code mesc i (.r0ModR1 true) s s' ∧ (s'.reg 0).toInt = (s.reg 0).toInt.tmod (s.reg 7).toInt ∧ s.Same [0, 2] s' := by
  have hr := h.two ha
  have hd0 : (s.reg 7).toInt ≠ 0 := fun h => hd (BitVec.eq_of_toInt_eq (by rw [h]; rfl))
  have z : execAll [⟨.convert, .q, []⟩, ⟨.idiv, .q, [.reg .q 7]⟩] s =
      some { ((s.put 2 (if (s.reg 0).msb then BitVec.allOnes 64 else 0)).put 0 (BitVec.ofInt 64 ((s.reg 0).toInt.tdiv (s.reg 7).toInt))).put 2
        (BitVec.ofInt 64 ((s.reg 0).toInt.tmod (s.reg 7).toInt)) with compared := none } := by
    have := divideSigned_sign (s := s.put 2 (if (s.reg 0).msb then BitVec.allOnes 64 else 0)) (x := s.reg 0) (d := s.reg 7) rfl rfl hd hn
    show (divideSigned (s.put 2 (if (s.reg 0).msb then BitVec.allOnes 64 else 0)) (s.reg 7)).bind _ = _
    rw [this]
    rfl
  refine ⟨⟨_, code_of (by rw [ha, hr]; decide +kernel) z, toInt_ofInt64 (quotient_bounds (toInt_bounds _).1 (toInt_bounds _).2 hd0 hn), fun k hk => ?_⟩,
    ⟨_, code_of (is := [⟨.convert, .q, []⟩, ⟨.idiv, .q, [.reg .q 7]⟩] ++ [⟨.mov, .q, [.reg .q 2, .reg .q 0]⟩]) (by rw [ha, hr]; decide +kernel)
      (execAll_append z rfl), toInt_ofInt64 (remainder_bounds (toInt_bounds _).1 (toInt_bounds _).2 hd0), fun k hk => ?_⟩⟩
  · simp only [List.mem_cons, List.not_mem_nil, or_false, not_or] at hk
    exact (put_other _ hk.2 _).trans ((put_other _ hk.1 _).trans (put_other _ hk.2 _))
  · simp only [List.mem_cons, List.not_mem_nil, or_false, not_or] at hk
    exact (put_other _ hk.1 _).trans ((put_other _ hk.2 _).trans ((put_other _ hk.1 _).trans (put_other _ hk.2 _)))

/-- `r0->r1` and `swap-r0-r1`. -/
theorem C81_move (mesc : Bool) (i : Alloc) (h : Reach i) (ha : i.allocated = ["rdi", "rax"]) (s : Regs) :
    (∃ s', Code mesc i .r0ToR1 s s' ∧ s'.reg 7 = s.reg 0 ∧ s.Same [7] s') ∧
      ∃ s', Code mesc i .swapR0R1 s s' ∧ s'.reg 7 = s.reg 0 ∧ s'.reg 0 = s.reg 7 ∧ s.Same [0, 7] s' := by
  have hr := h.two ha
  refine ⟨⟨_, code_of (is := [⟨.mov, .q, [.reg .q 0, .reg .q 7]⟩]) (by rw [ha, hr]; decide +kernel) rfl, rfl, fun k hk => put_other _ (by simpa using hk) _⟩,
    ⟨_, code_of (is := [⟨.xchg, .q, [.reg .q 0, .reg .q 7]⟩]) (by rw [ha, hr]; decide +kernel) rfl, rfl, rfl, fun k hk => ?_⟩⟩
  simp only [List.mem_cons, List.not_mem_nil, or_false, not_or] at hk
  exact (put_other _ hk.2 _).trans (put_other _ hk.1 _)

/-- A comparison of C, as `expr->register` writes it: the subtraction with two registers, and then the condition with the one that is left. -/
theorem C81_relation (mesc : Bool) (i j : Alloc) (h : Reach i) (ha : i.allocated = ["rdi", "rax"]) (hp : i.pushed = 0) (hj : i.free = some j) (f : Fn64)
    (g : Quad → Quad → Prop) (hf : truth f = some g) (s : Regs) :
    ∃ s1 s2, Code mesc i .r0SubR1 s s1 ∧ Code mesc j f s1 s2 ∧ (g (s.reg 0) (s.reg 7) → s2.reg 0 = 1) ∧ (¬ g (s.reg 0) (s.reg 7) → s2.reg 0 = 0) ∧
      s.Same [0] s2 := by
  obtain ⟨s1, c1, hc, _, hs⟩ := C81_compare mesc i h ha s
  have hcur : current j = 0 := by
    rw [Alloc.free, if_pos hp, ha] at hj
    cases hj
    rfl
  obtain ⟨s2, c2, ht, hn, hs2, _⟩ := C81_truth mesc j (.free h hj) f g hf s1 _ _ hc
  rw [hcur] at ht hn hs2
  exact ⟨s1, s2, c1, c2, ht, hn, fun k hk => (hs2 k hk).trans (hs k hk)⟩

/-- Shifts to the right are those of numbers without sign: -2 >> 1 is not -1. -/
theorem C81_shift_sign (mesc : Bool) (i : Alloc) (h : Reach i) (ha : i.allocated = ["rdi", "rax"]) (s : Regs) (h0 : (s.reg 0).toInt = -2)
    (h7 : s.reg 7 = 1) : ∃ s', Code mesc i .r0ShrR1 s s' ∧ (s'.reg 0).toInt = 9223372036854775807 := by
  obtain ⟨s', hc, hv, _⟩ := C81_binary mesc i h ha .r0ShrR1 _ _ rfl s
  refine ⟨s', hc, ?_⟩
  have : s.reg 0 = BitVec.ofInt 64 (-2) := by rw [← h0, BitVec.ofInt_toInt]
  rw [hv, h7, this]
  decide

/-- -7 divided by 2, and compared. -/
example : ∃ (i j : Alloc) (s : Regs), Reach i ∧ i.allocated = ["rdi", "rax"] ∧ i.pushed = 0 ∧ i.free = some j ∧ (s.reg 0).toInt = -7 ∧ s.reg 7 = 2 ∧
    s.reg 7 ≠ 0 ∧ ¬ ((s.reg 0).toInt = -9223372036854775808 ∧ (s.reg 7).toInt = -1) ∧ (s.reg 0).toInt.tdiv (s.reg 7).toInt = -3 :=
  ⟨⟨["rdi", "rax"], registers64.drop 2, 0⟩, _, ⟨fun k => if k = 0 then BitVec.ofInt 64 (-7) else 2, none⟩, .allocate (.allocate .start rfl) rfl, rfl, rfl, rfl,
    by decide, by decide, by decide, by decide, by decide⟩

end Mes.Props
