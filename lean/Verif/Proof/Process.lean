import Verif.Model.CExecl
import Verif.Model.CExit
import Verif.Model.CTemp
import Verif.Spec.Process
import Verif.Proof.Exec
/- Lemmas for C75 to C77. -/
namespace Mes.C
open Res Spec

theorem vexecLoop_ok (rest : List Nat) : ∀ (args argv : List Nat), (∀ a ∈ args, a ≠ 0) → argv.length + args.length < 1000 →
    vexecLoop (args ++ 0 :: rest) argv = ok (argv ++ args)
  | [], argv, _, hl => by
    rw [List.nil_append, vexecLoop, if_neg (by simp), ubUnless_true (by simpa using hl), ok_bind, List.append_nil]
  | a :: args, argv, h, hl => by
    have hl' : argv.length + args.length + 1 < 1000 := by simpa [Nat.add_assoc] using hl
    rw [List.cons_append, vexecLoop, if_pos (h a (by simp)), ubUnless_true (by omega), ok_bind,
      vexecLoop_ok rest args (argv ++ [a]) (fun b hb => h b (by simp [hb])) (by simp; omega), List.append_assoc]
    rfl

theorem vexecLoop_many (rest : List Nat) : ∀ (args argv : List Nat), (∀ a ∈ args, a ≠ 0) → 1000 ≤ argv.length + args.length →
    vexecLoop (args ++ rest) argv = ub
  | [], argv, _, hl => by
    have : ¬ argv.length < 1000 := by simpa using hl
    cases rest with
    | nil => rfl
    | cons a rest =>
      rw [List.nil_append, vexecLoop]
      split <;> rw [ubUnless_false this] <;> rfl
  | a :: args, argv, h, hl => by
    have hl' : 1000 ≤ argv.length + args.length + 1 := by simpa [Nat.add_assoc] using hl
    rw [List.cons_append, vexecLoop, if_pos (h a (by simp))]
    by_cases g : argv.length < 1000
    · rw [ubUnless_true g, ok_bind, vexecLoop_many rest args (argv ++ [a]) (fun b hb => h b (by simp [hb])) (by simp; omega)]
    · rw [ubUnless_false g]
      rfl

theorem vexecLoop_unended : ∀ (args argv : List Nat), (∀ a ∈ args, a ≠ 0) → vexecLoop args argv = ub
  | [], _, _ => rfl
  | a :: args, argv, h => by
    rw [vexecLoop, if_pos (h a (by simp))]
    by_cases g : argv.length < 1000
    · rw [ubUnless_true g, ok_bind, vexecLoop_unended args _ (fun b hb => h b (by simp [hb]))]
    · rw [ubUnless_false g]
      rfl

theorem cText_cstr {m : Mem} {p : Nat} {s : List Byte} (h : CStr m p s) : cText m (m.length + 1) p = ok s :=
  cText_ok _ _ _ h (by have := h.lt; omega)

theorem _root_.Mes.Spec.CStr.unique {m : Mem} {p : Nat} {s s' : List Byte} (h : CStr m p s) (h' : CStr m p s') : s = s' := by
  have e := cText_cstr h
  rw [cText_cstr h'] at e
  cases e
  rfl

theorem argTexts_ok {m : Mem} {ps : List Nat} {ss : List (List Byte)} (h : ArgTexts m ps ss) : argTexts m ps = ok ss := by
  induction h with
  | nil => rfl
  | cons _ hs _ ih => rw [argTexts, cText_cstr hs, ok_bind, ih, ok_bind]

theorem _root_.Mes.Spec.ArgTexts.nonzero {m : Mem} {ps : List Nat} {ss : List (List Byte)} (h : ArgTexts m ps ss) : ∀ a ∈ ps, a ≠ 0 := by
  induction h with
  | nil => simp
  | cons hp _ _ ih => simpa using ⟨hp, ih⟩

theorem vexec_ok {m : Mem} {file : Nat} {f : List Byte} {ps : List Nat} {ss : List (List Byte)} (rest : List Nat) (hf : CStr m file f) (h : ArgTexts m ps ss)
    (hl : ps.length ≤ 998) : vexec m file (ps ++ 0 :: rest) = ok (f, f :: ss) := by
  unfold vexec
  rw [vexecLoop_ok rest ps [file] h.nonzero (by simp; omega), ok_bind, cText_cstr hf, ok_bind, List.singleton_append, argTexts, cText_cstr hf, ok_bind, argTexts_ok h,
    ok_bind, ok_bind]

theorem registered_snoc (fs : List Nat) (f : Nat) : registered (fs ++ [f]) = f := by
  simp [registered, atexit]

theorem tempLetter_range (q d : Int) : 97 ≤ (tempLetter q d).toNat ∧ (tempLetter q d).toNat ≤ 122 := by
  have h : (q / d % 256).toNat % 26 < 26 := Nat.mod_lt _ (by decide)
  have e : (tempLetter q d).toNat = (q / d % 256).toNat % 26 + 97 := by
    unfold tempLetter
    rw [UInt8.toNat_ofNat']
    omega
  omega

theorem putBefore_ok {m : Mem} {p : Nat} (b : Byte) (h : p < m.length) : putBefore m (p + 1) b = ok (m.set p b, p) := by
  simp [putBefore, Mem.wr, h]

theorem patch_set (m : Mem) (p : Nat) (l : List Byte) (b : Byte) (h : p + l.length < m.length) : patch (m.set (p + l.length) b) p l = patch m p (l ++ [b]) := by
  apply List.ext_getElem?
  intro i
  rw [getElem?_patch _ _ _ _ (by simp; omega), getElem?_patch _ _ _ _ (by simp; omega), List.length_append, List.length_singleton]
  by_cases h1 : p ≤ i ∧ i < p + l.length
  · rw [if_pos h1, if_pos (by omega), List.getElem?_append_left (by omega)]
  · rw [if_neg h1]
    by_cases h2 : i = p + l.length
    · subst h2
      rw [if_pos (by omega), List.getElem?_set_self h, Nat.add_sub_cancel_left, List.getElem?_append_right (Nat.le_refl _), Nat.sub_self]
      rfl
    · rw [if_neg (by omega), List.getElem?_set_ne (by omega)]

theorem putLetters_ok (q : Int) : ∀ (ds : List Int) (m : Mem) (p : Nat), p + ds.length ≤ m.length →
    putLetters q ds m (p + ds.length) = ok (patch m p (ds.map (tempLetter q)).reverse)
  | [], m, p, _ => by
    rw [List.map_nil, List.reverse_nil, patch_nil]
    rfl
  | d :: ds, m, p, h => by
    have h' : p + ds.length < m.length := by simp at h; omega
    rw [putLetters, List.length_cons, ← Nat.add_assoc, putBefore_ok _ h', ok_bind]
    show putLetters q ds (m.set (p + ds.length) (tempLetter q d)) (p + ds.length) = _
    rw [putLetters_ok q ds _ p (by simp; omega), List.map_cons, List.reverse_cons]
    have := patch_set m p (ds.map (tempLetter q)).reverse (tempLetter q d) (by simpa using h')
    rw [← this]
    simp

/-- The six letters for an address, the first one first. -/
def sixLetters (a : Nat) : List Byte := (([16, 256, 4096, 65536, 1048576, 16777216] : List Int).map (tempLetter (lowInt a))).reverse

theorem sixLetters_ok (a : Nat) : SixLetters (sixLetters a) := by
  refine ⟨rfl, fun b hb => ?_⟩
  rw [sixLetters, List.mem_reverse, List.mem_map] at hb
  obtain ⟨d, -, rfl⟩ := hb
  exact tempLetter_range _ _

theorem mktemp_ok {m : Mem} {a p : Nat} {s : List Byte} (h : CStr m a s) (hp : p + 6 = a + s.length) : mktemp m a = ok (patch m p (sixLetters a), a) := by
  have hl := h.lt
  unfold mktemp
  rw [strchr_zero h, ok_bind, ← hp]
  have g : putLetters (lowInt a) [16, 256, 4096, 65536, 1048576, 16777216] m (p + 6) = ok (patch m p (sixLetters a)) :=
    putLetters_ok (lowInt a) [16, 256, 4096, 65536, 1048576, 16777216] m p (by simp; omega)
  simp only [g, ok_bind]

theorem cstr_patch {m : Mem} {a : Nat} {s t l : List Byte} (h : CStr m a (s ++ t)) (hl : l.length = t.length) (h0 : ∀ b ∈ l, b ≠ 0) :
    CStr (patch m (a + s.length) l) a (s ++ l) := by
  have hlt := h.lt
  rw [List.length_append] at hlt
  refine ⟨fun i hi => ?_, fun b hb => ?_⟩
  · simp only [List.length_append, List.length_singleton] at hi
    rw [getElem?_patch _ _ _ _ (by omega)]
    have g := h.1 i (by simp; omega)
    by_cases h1 : i < s.length
    · rw [if_neg (by omega), g, List.append_assoc, List.append_assoc, List.getElem?_append_left h1, List.getElem?_append_left h1]
    · by_cases h2 : i < s.length + l.length
      · rw [if_pos (by omega), List.append_assoc, List.getElem?_append_right (by omega), List.getElem?_append_left (by omega)]
        congr 1
        omega
      · rw [if_neg (by omega), g, List.getElem?_append_right (by simp; omega), List.getElem?_append_right (by simp; omega)]
        congr 1
        simp
        omega
  · rcases List.mem_append.1 hb with hb | hb
    · exact h.2 b (List.mem_append_left _ hb)
    · exact h0 b hb

end Mes.C
