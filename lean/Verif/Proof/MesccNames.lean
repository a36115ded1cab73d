import Verif.Model.Mescc

/-
The names of labels: what they consist of can be told from them.
-/
namespace Mes.X86
open Mes.Mescc

inductive Kind | orSkip | andSkip | els | brk | loop | cont
deriving DecidableEq

def Kind.str : Kind → String
  | .orSkip => "or_skip_b"
  | .andSkip => "and_skip_b"
  | .els => "else"
  | .brk => "break"
  | .loop => "loop"
  | .cont => "continue"

/-- A label: the length of the text at its place, its kind, and what conditions with `||` add to it, the last first. -/
structure Lbl where
  num : Nat
  kind : Kind
  path : List (Bool × Nat)

def pathStr : List (Bool × Nat) → String
  | [] => ""
  | (s, n) :: p => pathStr p ++ (if s then "_skip_b_" else "_b_") ++ numberString n

def Lbl.str (f : String) (l : Lbl) : String := "_" ++ f ++ "_" ++ numberString l.num ++ "_" ++ l.kind.str ++ pathStr l.path

def Lbl.ext (l : Lbl) (s : Bool) (n : Nat) : Lbl := ⟨l.num, l.kind, (s, n) :: l.path⟩

theorem Lbl.str_skip (f : String) (l : Lbl) (n : Nat) : (l.ext true n).str f = l.str f ++ "_skip_b_" ++ numberString n := by
  simp [Lbl.str, Lbl.ext, pathStr, String.append_assoc]

theorem Lbl.str_b (f : String) (l : Lbl) (n : Nat) : (l.ext false n).str f = l.str f ++ "_b_" ++ numberString n := by
  simp [Lbl.str, Lbl.ext, pathStr, String.append_assoc]

theorem Lbl.str_nil (f : String) (n : Nat) (k : Kind) : (Lbl.mk n k []).str f = "_" ++ f ++ "_" ++ numberString n ++ "_" ++ k.str := by
  simp [Lbl.str, pathStr]

/-! ## From the last character to the first -/

def Kind.rev : Kind → List Char
  | .orSkip => ['b', '_', 'p', 'i', 'k', 's', '_', 'r', 'o']
  | .andSkip => ['b', '_', 'p', 'i', 'k', 's', '_', 'd', 'n', 'a']
  | .els => ['e', 's', 'l', 'e']
  | .brk => ['k', 'a', 'e', 'r', 'b']
  | .loop => ['p', 'o', 'o', 'l']
  | .cont => ['e', 'u', 'n', 'i', 't', 'n', 'o', 'c']

theorem Kind.rev_eq (k : Kind) : k.str.toList.reverse = k.rev := by cases k <;> decide +kernel

def revNum (n : Nat) : List Char := (Nat.toDigits 10 n).reverse

def revPath : List (Bool × Nat) → List Char → List Char
  | [], k => k
  | (s, n) :: p, k => revNum n ++ '_' :: 'b' :: '_' :: ((if s then ['p', 'i', 'k', 's', '_'] else []) ++ revPath p k)

theorem number_toList (n : Nat) : (numberString n).toList = Nat.toDigits 10 n := Nat.toList_repr

theorem rev_path (p : List (Bool × Nat)) (k : List Char) : (pathStr p).toList.reverse ++ k = revPath p k := by
  induction p with
  | nil => simp [pathStr, revPath]
  | cons x p ih =>
    obtain ⟨s, n⟩ := x
    simp only [pathStr, revPath, String.toList_append, List.reverse_append, number_toList, List.append_assoc, revNum]
    cases s <;> simp [ih]

theorem rev_str (f : String) (l : Lbl) : (l.str f).toList.reverse =
    revPath l.path (l.kind.rev ++ '_' :: (revNum l.num ++ '_' :: (f.toList.reverse ++ ['_']))) := by
  rw [← rev_path]
  simp [Lbl.str, number_toList, revNum, ← Kind.rev_eq]

theorem span_eq {c : Char} : ∀ {a b x y : List Char}, c ∉ a → c ∉ b → a ++ c :: x = b ++ c :: y → a = b ∧ x = y
  | [], [], _, _, _, _, h => ⟨rfl, (List.cons.inj h).2⟩
  | [], d :: b, _, _, _, hb, h => absurd (List.mem_cons_self ..) ((List.cons.inj h).1 ▸ hb)
  | d :: a, [], _, _, ha, _, h => absurd (List.mem_cons_self ..) ((List.cons.inj h).1 ▸ ha)
  | d :: a, e :: b, _, _, ha, hb, h => by
    have h1 := (List.cons.inj h).1
    have h2 := span_eq (fun hm => ha (List.mem_cons_of_mem _ hm)) (fun hm => hb (List.mem_cons_of_mem _ hm)) (List.cons.inj h).2
    exact ⟨by rw [h1, h2.1], h2.2⟩

theorem revNum_no (n : Nat) : '_' ∉ revNum n := fun h => Nat.underscore_not_in_toDigits (List.mem_reverse.1 h)

theorem revNum_inj {n k : Nat} (h : revNum n = revNum k) : n = k := by
  have := List.reverse_inj.1 h
  rw [← Nat.ofDigitChars_ten_toDigits (n := n), this, Nat.ofDigitChars_ten_toDigits]

theorem revNum_head (n : Nat) : ∃ c r, revNum n = c :: r ∧ c.isDigit = true := by
  cases h : revNum n with
  | nil => exact absurd (List.reverse_eq_nil_iff.1 h) Nat.toDigits_ne_nil
  | cons c r =>
    refine ⟨c, r, rfl, Nat.isDigit_of_mem_toDigits (b := 10) (n := n) (by decide) (by decide) ?_⟩
    exact List.mem_reverse.1 (show c ∈ revNum n by rw [h]; exact List.mem_cons_self ..)

theorem kind_head (k : Kind) (r : List Char) : ∃ c r', k.rev ++ r = c :: r' ∧ c.isDigit = false := by
  cases k <;> exact ⟨_, _, rfl, by decide⟩

theorem not_pi (p : List (Bool × Nat)) (k : Kind) (r x : List Char) : revPath p (k.rev ++ r) ≠ 'p' :: 'i' :: x := by
  intro h
  cases p with
  | nil => cases k <;> simp [Kind.rev, revPath] at h
  | cons y p =>
    obtain ⟨s, n⟩ := y
    obtain ⟨c, q, h1, h2⟩ := revNum_head n
    unfold revPath at h
    rw [h1] at h
    have := (List.cons.inj h).1
    rw [this] at h2
    revert h2; decide

theorem revPath_inj {k k' : Kind} {r r' : List Char} : ∀ {p p' : List (Bool × Nat)},
    revPath p (k.rev ++ r) = revPath p' (k'.rev ++ r') → p = p' ∧ k.rev ++ r = k'.rev ++ r'
  | [], [], h => ⟨rfl, h⟩
  | [], (s, n) :: p', h => by
    obtain ⟨c, q, h1, h2⟩ := revNum_head n
    obtain ⟨c', q', g1, g2⟩ := kind_head k r
    unfold revPath at h
    rw [h1, g1] at h
    rw [(List.cons.inj h).1, h2] at g2
    cases g2
  | (s, n) :: p, [], h => by
    obtain ⟨c, q, h1, h2⟩ := revNum_head n
    obtain ⟨c', q', g1, g2⟩ := kind_head k' r'
    unfold revPath at h
    rw [h1, g1] at h
    rw [← (List.cons.inj h).1, h2] at g2
    cases g2
  | (s, n) :: p, (s', n') :: p', h => by
    unfold revPath at h
    obtain ⟨h1, h2⟩ := span_eq (revNum_no n) (revNum_no n') h
    have h3 := (List.cons.inj (List.cons.inj h2).2).2
    have hn := revNum_inj h1
    subst hn
    cases s <;> cases s'
    · have := revPath_inj (p := p) (p' := p') h3
      exact ⟨by rw [this.1], this.2⟩
    · exact absurd h3 (not_pi _ _ _ _)
    · exact absurd h3.symm (not_pi _ _ _ _)
    · have := revPath_inj (p := p) (p' := p') (List.append_cancel_left h3)
      exact ⟨by rw [this.1], this.2⟩

theorem kind_inj {k k' : Kind} {r r' : List Char} (h : k.rev ++ '_' :: r = k'.rev ++ '_' :: r') :
    k = k' ∧ r = r' := by
  cases k <;> cases k' <;> simp [Kind.rev] at h <;> exact ⟨rfl, h⟩

theorem Lbl.str_inj {f f' : String} {l l' : Lbl} (h : l.str f = l'.str f') : f = f' ∧ l = l' := by
  have h1 : (l.str f).toList.reverse = (l'.str f').toList.reverse := by rw [h]
  rw [rev_str, rev_str] at h1
  obtain ⟨h2, h3⟩ := revPath_inj h1
  obtain ⟨h4, h5⟩ := kind_inj h3
  obtain ⟨h6, h7⟩ := span_eq (revNum_no _) (revNum_no _) h5
  have h8 := List.reverse_inj.1 (List.append_cancel_right h7)
  refine ⟨String.toList_inj.1 h8, ?_⟩
  cases l; cases l'
  simp only [Lbl.mk.injEq]
  exact ⟨revNum_inj h6, h4, h2⟩

end Mes.X86
