import Verif.Proof.MesccFun

/-
C66: the functions that MesCC compiles compute what C says.
-/
namespace Mes.Props
open Mes.X86 Mes.Mescc Mes.CLang

/-- C66, as one would want it: when a call has a value, the machine that runs the assembled text of the function comes back with it. -/
def C66_full : Prop :=
  ∀ (f : Function) (args : List Int) (n : Nat) (v : Int) (base : Word) (bs : List Byte8) (room : Nat) (m : Mach),
    Sized f room → f.params.length = args.length →
    assemble (addresses base (functionText f).flatten) base (functionText f).flatten = some bs → Called base bs args room m →
    call n f args = some v → Returns m room args.length v

/-- It holds for plain functions whose labels are different from each other.  Missing: unsigned types, the values of `&&` and `||`, and
`!=` and `?:` beside other values, as far as MesCC has them right; pointers, arrays, structures, calls, side effects in expressions. -/
theorem C66_mescc_partial (f : Function) (args : List Int) (n : Nat) (v : Int) (base : Word) (bs : List Byte8) (room : Nat) (m : Mach)
    (hp : plainF f = true) (hs : Sized f room) (hl : f.params.length = args.length) (hn : (labelsOf (functionText f).flatten).Nodup)
    (ha : assemble (addresses base (functionText f).flatten) base (functionText f).flatten = some bs) (hm : Called base bs args room m)
    (hc : call n f args = some v) : Returns m room args.length v :=
  called_ok hs hl hn ha hm (plain_called hp n args) hc

/-- More generally: for every call in which the expressions fit in the states in which they are evaluated. -/
theorem C66_mescc_run_partial (f : Function) (args : List Int) (n : Nat) (v : Int) (base : Word) (bs : List Byte8) (room : Nat) (m : Mach)
    (hf : FitsRun n f.body (enter f.params args)) (hs : Sized f room) (hl : f.params.length = args.length)
    (hn : (labelsOf (functionText f).flatten).Nodup)
    (ha : assemble (addresses base (functionText f).flatten) base (functionText f).flatten = some bs) (hm : Called base bs args room m)
    (hc : call n f args = some v) : Returns m room args.length v :=
  called_ok hs hl hn ha hm hf hc

/-! ## Machines -/

/-- A machine at a call: the code at 0x1000, the stack at 0x100000, the return address 0, and no instruction anywhere else. -/
def machine (code : List Byte8) (args : List Int) : Mach where
  reg := fun r => if r = .esp then 0x100000 else 0
  eip := 0x1000
  mem := fun x =>
    if 0x1000 ≤ x.toNat ∧ x.toNat < 0x1000 + code.length then code[x.toNat - 0x1000]?.getD 0
    else if 0x100000 ≤ x.toNat ∧ x.toNat < 0x100004 then 0
    else if 0x100004 ≤ x.toNat ∧ x.toNat < 0x100004 + 4 * args.length then
      (BitVec.ofInt 32 (args[(x.toNat - 0x100004) / 4]?.getD 0)).extractLsb' (8 * ((x.toNat - 0x100004) % 4)) 8
    else 0xd6
  flags := ⟨false, false, false, false, false, false⟩
  time := 0
  oracle := fun _ _ => false

theorem machine_called {code : List Byte8} {args : List Int} (hc : code.length < 0x1000) (ha : args.length < 0x1000) :
    Called 0x1000 code args 10 (machine code args) := by
  refine ⟨rfl, fun i h => ?_, fun k h => ?_, by omega⟩
  · have e : ((0x1000 : Word) + BitVec.ofNat 32 i).toNat = 0x1000 + i := by
      rw [BitVec.toNat_add, BitVec.toNat_ofNat]
      show (4096 + i % 2 ^ 32) % 2 ^ 32 = _
      omega
    constructor
    · show (if 0x1000 ≤ _ ∧ _ then code[_ - 0x1000]?.getD 0 else _) = _
      rw [e, if_pos ⟨by omega, by omega⟩, Nat.add_sub_cancel_left, List.getElem?_eq_getElem h]
      rfl
    · unfold OnStack
      rw [BitVec.toNat_sub, e]
      show ¬ ((2 ^ 32 - ((0x100000 : Word) - BitVec.ofNat 32 (4 * (10 + 1046))).toNat) + (0x1000 + i)) % 2 ^ 32 < _
      rw [show ((0x100000 : Word) - BitVec.ofNat 32 (4 * (10 + 1046))).toNat = 0x100000 - 4 * 1056 from by decide]
      omega
  · have e : ∀ j, j < 4 → ((0x100000 : Word) + BitVec.ofNat 32 (4 * (k + 1)) + BitVec.ofNat 32 j).toNat = 0x100004 + (4 * k + j) := fun j hj => by
      rw [BitVec.toNat_add, BitVec.toNat_add, BitVec.toNat_ofNat, BitVec.toNat_ofNat]
      show ((1048576 + _) % 2 ^ 32 + _) % 2 ^ 32 = _
      omega
    have b : ∀ j, j < 4 → (machine code args).mem ((0x100000 : Word) + BitVec.ofNat 32 (4 * (k + 1)) + BitVec.ofNat 32 j) =
        (BitVec.ofInt 32 args[k]).extractLsb' (8 * j) 8 := fun j hj => by
      show (if 0x1000 ≤ _ ∧ _ then code[_ - 0x1000]?.getD 0 else if _ ∧ _ then 0 else if _ ∧ _ then
        (BitVec.ofInt 32 (args[_]?.getD 0)).extractLsb' _ 8 else _) = _
      rw [e j hj, if_neg (by omega), if_neg (by omega), if_pos (by omega), Nat.add_sub_cancel_left]
      rw [show (4 * k + j) / 4 = k by omega, show (4 * k + j) % 4 = j by omega, List.getElem?_eq_getElem h]
      rfl
    have b0 := b 0 (by omega)
    rw [BitVec.add_zero] at b0
    show word4 _ _ _ _ = _
    rw [← word4_bytes (BitVec.ofInt 32 args[k])]
    show word4 ((machine code args).mem ((0x100000 : Word) + BitVec.ofNat 32 (4 * (k + 1)))) ((machine code args).mem _) ((machine code args).mem _)
      ((machine code args).mem _) = _
    rw [b0]
    congr 1
    · exact b 1 (by omega)
    · exact b 2 (by omega)
    · exact b 3 (by omega)

theorem machine_return {code : List Byte8} {args : List Int} (hc : code.length < 0x1000) (ha : args.length < 0x1000) :
    ∀ i, i < 16 → (machine code args).mem (read32 (machine code args) ((machine code args).reg .esp) + BitVec.ofNat 32 i) = 0xd6 ∧
      ¬ OnStack ((machine code args).reg .esp) 10 args.length (read32 (machine code args) ((machine code args).reg .esp) + BitVec.ofNat 32 i) := by
  intro i hi
  have z : ∀ j, j < 4 → (machine code args).mem ((0x100000 : Word) + BitVec.ofNat 32 j) = 0 := fun j hj => by
    have e : ((0x100000 : Word) + BitVec.ofNat 32 j).toNat = 0x100000 + j := by
      rw [BitVec.toNat_add, BitVec.toNat_ofNat]
      show (1048576 + _) % 2 ^ 32 = _
      omega
    show (if 0x1000 ≤ _ ∧ _ then code[_ - 0x1000]?.getD 0 else if _ ∧ _ then 0 else _) = _
    rw [e, if_neg (by omega), if_pos (by omega)]
  have hr : read32 (machine code args) ((machine code args).reg .esp) = 0 := by
    have z0 := z 0 (by omega)
    rw [BitVec.add_zero] at z0
    show word4 ((machine code args).mem (0x100000 : Word)) ((machine code args).mem _) ((machine code args).mem _) ((machine code args).mem _) = _
    rw [z0]
    show word4 0 ((machine code args).mem ((0x100000 : Word) + BitVec.ofNat 32 1)) ((machine code args).mem ((0x100000 : Word) + BitVec.ofNat 32 2))
      ((machine code args).mem ((0x100000 : Word) + BitVec.ofNat 32 3)) = _
    rw [z 1 (by omega), z 2 (by omega), z 3 (by omega)]
    rfl
  have e : ((0 : Word) + BitVec.ofNat 32 i).toNat = i := by
    rw [show (0 : Word) + BitVec.ofNat 32 i = BitVec.ofNat 32 i from BitVec.zero_add _, BitVec.toNat_ofNat]; omega
  rw [hr]
  constructor
  · show (if 0x1000 ≤ _ ∧ _ then code[_ - 0x1000]?.getD 0 else if _ ∧ _ then 0 else if _ ∧ _ then
      (BitVec.ofInt 32 (args[_]?.getD 0)).extractLsb' _ 8 else _) = _
    rw [e, if_neg (by omega), if_neg (by omega), if_neg (by omega)]
  · unfold OnStack
    rw [BitVec.toNat_sub, e]
    show ¬ ((2 ^ 32 - ((0x100000 : Word) - BitVec.ofNat 32 (4 * (10 + 1046))).toNat) + i) % 2 ^ 32 < _
    rw [show ((0x100000 : Word) - BitVec.ofNat 32 (4 * (10 + 1046))).toNat = 0x100000 - 4 * 1056 from by decide]
    omega

def codeOf (f : Function) : List Byte8 := (assemble (addresses 0x1000 (functionText f).flatten) 0x1000 (functionText f).flatten).getD []

/-! ## What goes wrong -/

/-- int f (int a, unsigned b) { return a / b; } -/
def quotient : Function := ⟨"f", [("a", .int), ("b", .uint)], .ret (.bin .div (.ident "a") (.ident "b"))⟩

/-- -2 / 2u is 2147483647; MesCC divides with signs, and gives -1. -/
theorem C66_division_wrong : call 1 quotient [-2, 2] = some 2147483647 ∧
    Returns (machine (codeOf quotient) [-2, 2]) 10 2 (-1) ∧ ¬ Returns (machine (codeOf quotient) [-2, 2]) 10 2 2147483647 := by
  have hl : (codeOf quotient).length < 0x1000 := by decide +kernel
  have h : Returns (machine (codeOf quotient) [-2, 2]) 10 2 (-1) :=
    called_ret (name := "f") (ps := [("a", .int), ("b", .uint)]) (e := .bin .div (.ident "a") (.ident "b")) (args := [-2, 2])
       (base := 0x1000) (bs := codeOf quotient) ⟨by decide, trivial, by decide, by decide⟩ rfl (by decide +kernel) (by decide +kernel) (machine_called hl (by decide))
      (fun X V T L hX hT hV => ⟨fun _ => True, by
        rw [show BitVec.ofInt 32 (-1) = BitVec.ofInt 32 ((BitVec.ofInt 32 (-2)).toInt.tdiv (BitVec.ofInt 32 2).toInt) by decide]
        exact div_signed (a := .ident "a") (b := .ident "b") (x := -2) (y := 2) hX hT hV (by decide) trivial trivial (by decide) (by decide) (by decide) (by decide)⟩)
  refine ⟨by decide, h, fun h' => ?_⟩
  exact absurd (returns_unique h h' (machine_return (args := [-2, 2]) hl (by decide))) (by decide)

theorem C66_false : ¬ C66_full := fun h => C66_division_wrong.2.2 (h quotient [-2, 2] 1 2147483647 0x1000 (codeOf quotient) 10 _
  ⟨by decide, trivial, by decide, by decide⟩ rfl (by decide +kernel) (machine_called (by decide +kernel) (by decide)) C66_division_wrong.1)

/-- int f (int a, int b) { return a || b; } -/
def either : Function := ⟨"f", [("a", .int), ("b", .int)], .ret (.lor (.ident "a") (.ident "b"))⟩

/-- 2 || 0 is 1; MesCC gives 2. -/
theorem C66_or_wrong : call 1 either [2, 0] = some 1 ∧
    Returns (machine (codeOf either) [2, 0]) 10 2 2 ∧ ¬ Returns (machine (codeOf either) [2, 0]) 10 2 1 := by
  have hl : (codeOf either).length < 0x1000 := by decide +kernel
  have h : Returns (machine (codeOf either) [2, 0]) 10 2 2 :=
    called_ret (name := "f") (ps := [("a", .int), ("b", .int)]) (e := .lor (.ident "a") (.ident "b")) (args := [2, 0])
       (base := 0x1000) (bs := codeOf either) ⟨by decide, trivial, by decide, by decide⟩ rfl (by decide +kernel) (by decide +kernel) (machine_called hl (by decide))
      (fun X V T L hX hT hV => ⟨_, or_left (x := 2) hX hT hV trivial (by decide) (by decide)⟩)
  refine ⟨by decide, h, fun h' => ?_⟩
  exact absurd (returns_unique h h' (machine_return (args := [2, 0]) hl (by decide))) (by decide)

/-! ## A function that meets the hypotheses -/

/-- int f (int n) { int s = 0; while (n > 0) { if (n % 2 != 0 && s < 1000) s = s + n * n; else { n = n - 1; continue; } n = n - 1; } return s; } -/
def squares : Function :=
  ⟨"f", [("n", .int)],
    .seq (.decl .int "s" (some (.fixed ⟨true, 0, .none⟩)))
    (.seq (.while (.bin .gt (.ident "n") (.fixed ⟨true, 0, .none⟩))
      (.block (.seq (.ifElse (.land (.bin .ne (.bin .mod (.ident "n") (.fixed ⟨true, 2, .none⟩)) (.fixed ⟨true, 0, .none⟩))
            (.bin .lt (.ident "s") (.fixed ⟨true, 1000, .none⟩)))
          (.assign "s" (.bin .add (.ident "s") (.bin .mul (.ident "n") (.ident "n"))))
          (.block (.seq (.assign "n" (.bin .sub (.ident "n") (.fixed ⟨true, 1, .none⟩))) .cont)))
        (.assign "n" (.bin .sub (.ident "n") (.fixed ⟨true, 1, .none⟩))))))
    (.ret (.ident "s")))⟩

example : plainF squares = true ∧ (labelsOf (functionText squares).flatten).Nodup := by decide +kernel

/-- 5 * 5 + 3 * 3 + 1 * 1. -/
example : Returns (machine (codeOf squares) [5]) 10 1 35 :=
  C66_mescc_partial squares [5] 100 35 0x1000 (codeOf squares) 10 _ (by decide +kernel)
    ⟨by decide, ⟨trivial, ⟨⟨rfl, ⟨rfl, trivial, rfl, trivial, trivial⟩, trivial⟩, trivial⟩⟩, by decide, by decide⟩ rfl (by decide +kernel)
    (by decide +kernel) (machine_called (by decide +kernel) (by decide)) (by decide +kernel)

/-- int f (unsigned a, unsigned b) { return a / b; }: not plain, but it fits. -/
def unsignedQuotient : Function := ⟨"f", [("a", .uint), ("b", .uint)], .ret (.bin .div (.ident "a") (.ident "b"))⟩

example : plainF unsignedQuotient = false ∧ FitsRun 1 unsignedQuotient.body (enter unsignedQuotient.params [4294967294, 2]) :=
  ⟨rfl, trivial, trivial, fun h => (nomatch h), fun _ t u x y ht hu _ _ => (by
    cases ht; cases hu; exact .inl rfl), fun h => (nomatch h)⟩

end Mes.Props
