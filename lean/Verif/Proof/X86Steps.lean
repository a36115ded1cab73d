import Verif.Model.Mescc

/-
Running assembled code: a window of memory that the program uses (stack and frame), the code outside of it.
-/
namespace Mes.X86
open Mes.Mescc

/-- A word of four bytes. -/
def word (mem : Word → Byte8) (a : Word) : Word := word4 (mem a) (mem (a + 1)) (mem (a + 2)) (mem (a + 3))

theorem word4_bytes (v : Word) : word4 (v.extractLsb' 0 8) (v.extractLsb' 8 8) (v.extractLsb' 16 8) (v.extractLsb' 24 8) = v := by
  unfold word4
  apply BitVec.eq_of_getLsbD_eq
  intro i hi
  simp only [BitVec.getLsbD_append, BitVec.getLsbD_extractLsb']
  by_cases h1 : i < 8
  · simp [h1]
  · by_cases h2 : i - 8 < 8
    · simp [h1, h2]; congr 1; omega
    · by_cases h3 : i - 8 - 8 < 8
      · simp [h1, h2, h3]; congr 1; omega
      · simp [h1, h2, h3]
        have : i - 8 - 8 - 8 < 8 := by omega
        simp [this]; congr 1; omega

/-- The program: the window (`words` words from `lo` on), the memory outside of it, and the addresses of the labels. -/
structure Frame where
  lo : Word
  room : Nat
  locals : Nat
  params : Nat
  M : Word → Byte8
  env : String → Word
  savedBp : Word
  retAddr : Word

namespace Frame

def words (X : Frame) : Nat := X.room + X.locals + 2 + X.params

/-- The window does not wrap around. -/
def Ok (X : Frame) : Prop := 4 * X.words ≤ 2 ^ 32

def «at» (X : Frame) (k : Nat) : Word := X.lo + BitVec.ofNat 32 (4 * k)

def bp (X : Frame) : Word := X.at (X.room + X.locals)

def Inside (X : Frame) (x : Word) : Prop := (x - X.lo).toNat < 4 * X.words

theorem sub_lo (X : Frame) (n : Nat) (h : n < 2 ^ 32) : (X.lo + BitVec.ofNat 32 n - X.lo).toNat = n := by
  rw [BitVec.add_comm, BitVec.add_sub_cancel, BitVec.toNat_ofNat, Nat.mod_eq_of_lt h]

theorem lo_inj (X : Frame) {n k : Nat} (hn : n < 2 ^ 32) (hk : k < 2 ^ 32) (h : X.lo + BitVec.ofNat 32 n = X.lo + BitVec.ofNat 32 k) : n = k := by
  have := congrArg (fun x => (x - X.lo).toNat) h
  simpa only [sub_lo X n hn, sub_lo X k hk] using this

theorem inside_of (X : Frame) (hX : X.Ok) {n : Nat} (h : n < 4 * X.words) : X.Inside (X.lo + BitVec.ofNat 32 n) := by
  unfold Inside
  unfold Ok at hX
  rw [sub_lo X n (by omega)]
  exact h

theorem at_add (X : Frame) (k j : Nat) : X.at k + BitVec.ofNat 32 j = X.lo + BitVec.ofNat 32 (4 * k + j) := by
  unfold «at»
  rw [BitVec.ofNat_add, BitVec.add_assoc]

theorem at_sub4 (X : Frame) (k : Nat) : X.at (k + 1) - 4 = X.at k := by
  unfold «at»
  rw [show 4 * (k + 1) = 4 * k + 4 by omega, BitVec.ofNat_add, ← BitVec.add_assoc]
  exact BitVec.add_sub_cancel _ _

theorem at_add4 (X : Frame) (k : Nat) : X.at k + 4 = X.at (k + 1) := by
  unfold «at»
  rw [show 4 * (k + 1) = 4 * k + 4 by omega, BitVec.ofNat_add, ← BitVec.add_assoc]
  rfl

theorem at_bytes (X : Frame) (k : Nat) :
    X.at k = X.lo + BitVec.ofNat 32 (4 * k) ∧ X.at k + 1 = X.lo + BitVec.ofNat 32 (4 * k + 1) ∧
    X.at k + 2 = X.lo + BitVec.ofNat 32 (4 * k + 2) ∧ X.at k + 3 = X.lo + BitVec.ofNat 32 (4 * k + 3) :=
  ⟨rfl, at_add X k 1, at_add X k 2, at_add X k 3⟩

end Frame

/-- The memory after a word was written. -/
def poke (mem : Word → Byte8) (a v : Word) : Word → Byte8 := fun x =>
  if x = a + 3 then v.extractLsb' 24 8
  else if x = a + 2 then v.extractLsb' 16 8
  else if x = a + 1 then v.extractLsb' 8 8
  else if x = a then v.extractLsb' 0 8
  else mem x

theorem write32_eq (m : Mach) (a v : Word) : write32 m a v = { m with mem := poke m.mem a v } := rfl

theorem read32_eq (m : Mach) (a : Word) : read32 m a = word m.mem a := rfl

theorem word_poke (X : Frame) (hX : X.Ok) (mem : Word → Byte8) {j k : Nat} (hj : j < X.words) (hk : k < X.words) (v : Word) :
    word (poke mem (X.at k) v) (X.at j) = if j = k then v else word mem (X.at j) := by
  unfold Frame.Ok at hX
  obtain ⟨a0, a1, a2, a3⟩ := X.at_bytes k
  obtain ⟨b0, b1, b2, b3⟩ := X.at_bytes j
  have key : ∀ p q : Nat, p < 4 → q < 4 → (X.lo + BitVec.ofNat 32 (4 * j + p) = X.lo + BitVec.ofNat 32 (4 * k + q) ↔ j = k ∧ p = q) := by
    intro p q hp hq
    constructor
    · intro h
      have := X.lo_inj (by omega) (by omega) h
      omega
    · rintro ⟨rfl, rfl⟩; rfl
  have key0 : ∀ q : Nat, q < 4 → (X.lo + BitVec.ofNat 32 (4 * j) = X.lo + BitVec.ofNat 32 (4 * k + q) ↔ j = k ∧ 0 = q) :=
    fun q hq => key 0 q (by omega) hq
  have key1 : ∀ p : Nat, p < 4 → (X.lo + BitVec.ofNat 32 (4 * j + p) = X.lo + BitVec.ofNat 32 (4 * k) ↔ j = k ∧ p = 0) :=
    fun p hp => key p 0 hp (by omega)
  have key2 : (X.lo + BitVec.ofNat 32 (4 * j) = X.lo + BitVec.ofNat 32 (4 * k) ↔ j = k ∧ 0 = 0) := key 0 0 (by omega) (by omega)
  unfold word poke
  rw [a1, a2, a3, b1, b2, b3, a0, b0]
  by_cases h : j = k
  · subst h
    refine Eq.trans ?_ (if_pos rfl).symm
    have f0 : ∀ q : Nat, q < 4 → 0 < q → ¬ (X.lo + BitVec.ofNat 32 (4 * j) = X.lo + BitVec.ofNat 32 (4 * j + q)) := fun q hq h => by
      rw [key0 q hq]; omega
    have f : ∀ p q : Nat, p < 4 → q < 4 → p < q → ¬ (X.lo + BitVec.ofNat 32 (4 * j + p) = X.lo + BitVec.ofNat 32 (4 * j + q)) :=
      fun p q hp hq h => by rw [key p q hp hq]; omega
    simp only [f0 1 (by omega) (by omega), f0 2 (by omega) (by omega), f0 3 (by omega) (by omega), f 1 2 (by omega) (by omega) (by omega),
      f 1 3 (by omega) (by omega) (by omega), f 2 3 (by omega) (by omega) (by omega), if_false, if_true]
    exact word4_bytes v
  · rw [if_neg h]
    have n3 : ∀ p : Nat, p < 4 → ¬ (X.lo + BitVec.ofNat 32 (4 * j + p) = X.lo + BitVec.ofNat 32 (4 * k)) := fun p hp => by rw [key1 p hp]; omega
    have n : ∀ p q : Nat, p < 4 → q < 4 → ¬ (X.lo + BitVec.ofNat 32 (4 * j + p) = X.lo + BitVec.ofNat 32 (4 * k + q)) := fun p q hp hq => by
      rw [key p q hp hq]; omega
    have n0 : ∀ q : Nat, q < 4 → ¬ (X.lo + BitVec.ofNat 32 (4 * j) = X.lo + BitVec.ofNat 32 (4 * k + q)) := fun q hq => by
      rw [key0 q hq]; omega
    have n00 : ¬ (X.lo + BitVec.ofNat 32 (4 * j) = X.lo + BitVec.ofNat 32 (4 * k)) := by rw [key2]; omega
    rw [if_neg (n0 3 (by omega)), if_neg (n0 2 (by omega)), if_neg (n0 1 (by omega)), if_neg n00]
    rw [if_neg (n 1 3 (by omega) (by omega)), if_neg (n 1 2 (by omega) (by omega)), if_neg (n 1 1 (by omega) (by omega)), if_neg (n3 1 (by omega))]
    rw [if_neg (n 2 3 (by omega) (by omega)), if_neg (n 2 2 (by omega) (by omega)), if_neg (n 2 1 (by omega) (by omega)), if_neg (n3 2 (by omega))]
    rw [if_neg (n 3 3 (by omega) (by omega)), if_neg (n 3 2 (by omega) (by omega)), if_neg (n 3 1 (by omega) (by omega)), if_neg (n3 3 (by omega))]

theorem poke_outside (X : Frame) (hX : X.Ok) (mem : Word → Byte8) {k : Nat} (hk : k < X.words) (v : Word) {x : Word} (hx : ¬ X.Inside x) :
    poke mem (X.at k) v x = mem x := by
  obtain ⟨a0, a1, a2, a3⟩ := X.at_bytes k
  have key : ∀ q : Nat, q < 4 → x ≠ X.lo + BitVec.ofNat 32 (4 * k + q) := fun q hq h => hx (by rw [h]; exact X.inside_of hX (by omega))
  unfold poke
  rw [a1, a2, a3, a0]
  rw [if_neg (key 3 (by omega)), if_neg (key 2 (by omega)), if_neg (key 1 (by omega))]
  exact if_neg (key 0 (by omega))

/-! ## Code in memory -/

/-- The memory outside the window holds the text from an address on, and its labels have their addresses. -/
def CodeAt (X : Frame) : Word → List Line → Prop
  | _, [] => True
  | a, l :: ls =>
    (∃ bs, l.bytes X.env a = some bs ∧
      ∀ i (h : i < bs.length), ¬ X.Inside (a + BitVec.ofNat 32 i) ∧ X.M (a + BitVec.ofNat 32 i) = bs[i]) ∧
    (∀ x, l = .label x → X.env x = a) ∧ CodeAt X (a + BitVec.ofNat 32 l.size) ls

theorem bytesAll_length (env : String → Word) (args : List Arg) : ∀ a, (Arg.bytesAll env a args).length = (args.map Arg.size).sum := by
  induction args with
  | nil => intro a; rfl
  | cons x xs ih =>
    intro a
    simp only [Arg.bytesAll, List.length_append, ih, List.map_cons, List.sum_cons]
    congr 1
    cases x <;> rfl

theorem size_of_bytes {env : String → Word} {a : Word} {l : Line} {bs : List Byte8} (h : l.bytes env a = some bs) : bs.length = l.size := by
  cases l with
  | ins name args =>
    simp only [Line.bytes, Option.map_eq_some_iff] at h
    obtain ⟨cs, hc, rfl⟩ := h
    simp only [Line.size, hc, Option.getD_some, List.length_append, bytesAll_length]
  | label l => simp only [Line.bytes, Option.some.injEq] at h; subst h; rfl
  | comment => simp only [Line.bytes, Option.some.injEq] at h; subst h; rfl

theorem textSize_cons (l : Line) (ls : List Line) : textSize (l :: ls) = l.size + textSize ls := by simp [textSize]

theorem textSize_append (ls ks : List Line) : textSize (ls ++ ks) = textSize ls + textSize ks := by simp [textSize]

theorem textSize_nil : textSize [] = 0 := rfl

theorem codeAt_append (X : Frame) (ls ks : List Line) : ∀ a, CodeAt X a (ls ++ ks) ↔ CodeAt X a ls ∧ CodeAt X (a + BitVec.ofNat 32 (textSize ls)) ks := by
  induction ls with
  | nil => intro a; simp [CodeAt, textSize_nil]
  | cons l ls ih =>
    intro a
    simp only [List.cons_append, CodeAt, ih, textSize_cons, BitVec.ofNat_add, ← BitVec.add_assoc, and_assoc]

/-! ## Steps -/

theorem Steps.trans {m m' m'' : Mach} (h : Steps m m') (h' : Steps m' m'') : Steps m m'' := by
  induction h with
  | refl => exact h'
  | step h1 _ ih => exact .step h1 (ih h')

theorem Steps.one {m m' : Mach} (h : X86.step m = some m') : Steps m m' := .step h (.refl _)

theorem range_map_split (f : Nat → Byte8) (bs : List Byte8) (n : Nat) (hn : bs.length ≤ n) (h : ∀ i (h : i < bs.length), f i = bs[i]) :
    ∃ rest, (List.range n).map f = bs ++ rest ∧ rest.length = n - bs.length := by
  refine ⟨((List.range n).map f).drop bs.length, ?_, by simp⟩
  have : ((List.range n).map f).take bs.length = bs := by
    apply List.ext_getElem
    · simp; omega
    · intro i h1 h2
      simp only [List.getElem_take, List.getElem_map, List.getElem_range]
      exact h i h2
  conv => lhs; rw [← List.take_append_drop bs.length ((List.range n).map f), this]

/-- One instruction of the text. -/
theorem step_ins {X : Frame} {m : Mach} {name : String} {args : List Arg} {ls : List Line} {bs : List Byte8} {i : Instr} {m' : Mach}
    (hc : CodeAt X m.eip (.ins name args :: ls)) (hm : ∀ x, ¬ X.Inside x → m.mem x = X.M x)
    (hl : defines.lookup name = some bs)
    (hd : ∀ rest, decode (bs ++ (Arg.bytesAll X.env (m.eip + BitVec.ofNat 32 bs.length) args ++ rest)) = some (i, rest))
    (hn : (Line.ins name args).size ≤ 16)
    (hx : exec { m with eip := m.eip + BitVec.ofNat 32 (Line.ins name args).size } i = some m') :
    step m = some { m' with time := m'.time + 1 } := by
  obtain ⟨⟨cs, hb, hcs⟩, -, -⟩ := hc
  have hsz := size_of_bytes hb
  simp only [Line.bytes, hl, Option.map_some, Option.some.injEq] at hb
  obtain ⟨rest, hr, hrl⟩ := range_map_split (fun i => m.mem (m.eip + BitVec.ofNat 32 i)) cs 16 (by omega)
    (fun i h => by rw [hm _ (hcs i h).1]; exact (hcs i h).2)
  unfold step fetch
  rw [hr, ← hb, List.append_assoc, hd rest]
  simp only
  rw [hrl, show 16 - (16 - cs.length) = (Line.ins name args).size by omega, hx]
  rfl

end Mes.X86
