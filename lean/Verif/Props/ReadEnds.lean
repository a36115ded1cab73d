import Verif.Props.Reader
import Verif.Proof.ReadStops2
import Verif.Proof.Setup
/-
Property C28: the reader comes to an end (/repo/src/reader.c).

`PlainText dots bs` (Spec/ReadText.lean): an ASCII text in which every `#|` and `#!` is closed, and in which there is no `#(`, or no
dot that stands alone.  Nothing else is asked of the text: parentheses and strings may be open, numbers too large, names unknown.
-/
namespace Mes.Props
open Res Spec

/-- One call of the reader ends on every plain text: with an object, an error, an abort or undefined behaviour.  With an object
it takes at least one character, unless the text is empty or starts with a vertical tab or a carriage return. -/
theorem C28_ends_partial {E : Env} {s : St} {w : In} {H : List (List Byte × Int)} {bs : List Byte} {clear dots : Bool} {fuel : Nat}
    (h : Reading E s w H bs clear) (hp : E.p = 0) (ht : PlainText dots bs) (hk : H.length + bs.length < E.k)
    (hf : 3 * bs.length + s.maxString + 4 ≤ fuel) :
    readEnv E.k fuel s w ≠ loop ∧ ∀ x s' w', readEnv E.k fuel s w = ok (x, s', w') → ∃ H' rest, Reading E s' w' H' rest false ∧
      rest <:+ bs ∧ (bs = [] ∨ bs.head? = some 11 ∨ bs.head? = some 13 ∨ rest.length < bs.length) := by
  obtain ⟨h1, h2⟩ := stops_readEnv hp (h.with hp (fileInput_weaken (h.file hp))) ht hk hf
  refine ⟨h1, fun x s' w' e => ?_⟩
  obtain ⟨H', t', o, hd⟩ := h2 _ e
  refine ⟨H', t', o.rd, o.suffix, ?_⟩
  have key : ∀ b : Byte, next bs = code b → bs.head? = some b := fun b e => by obtain ⟨v, rfl⟩ := next_byte e; rfl
  rcases hd with hd | hd | hd | hd
  · exact .inl hd
  · exact .inr (.inl (key 11 hd))
  · exact .inr (.inr (.inl (key 13 hd)))
  · exact .inr (.inr (.inr hd))

/-- Reading all data of a file ends on every plain text without vertical tabs and carriage returns. -/
theorem C28_all_partial {E : Env} {s : St} {w : In} {H : List (List Byte × Int)} {bs : List Byte} {clear dots : Bool} {fuel more : Nat}
    (h : Reading E s w H bs clear) (hp : E.p = 0) (ht : PlainText dots bs) (hno : ∀ b ∈ bs, b ≠ 11 ∧ b ≠ 13) (hk : H.length + bs.length < E.k)
    (hf : 3 * bs.length + s.maxString + 4 ≤ fuel) (hm : bs.length < more) : readAll E.k fuel more s w ≠ loop :=
  stops_readAll hp fuel s.maxString more s w H bs (h.with hp (fileInput_weaken (h.file hp))) ht hno hk (Nat.le_refl _) hf (by omega)

/-- The same from the start of the interpreter, when no memory has been used. -/
theorem C28_started_partial {s : St} {w : In} {bs : List Byte} {dots : Bool} {fuel more k : Nat} (ha : 3000 ≤ s.arena) (hs : 64 ≤ s.maxString)
    (hw : FileInput w bs true) (ht : PlainText dots bs) (hno : ∀ b ∈ bs, b ≠ 11 ∧ b ≠ 13) (hk : 200 + bs.length < k)
    (hf : 3 * bs.length + s.maxString + 4 ≤ fuel) (hm : bs.length < more) :
    ∃ s', initSymbols s k = ok s' ∧ readAll k fuel more s' w ≠ loop := by
  obtain ⟨s', h1, h2, _, _, h3, _⟩ := start_stage (mes := true) (fuel := k) ha hs (by omega) hw
  refine ⟨s', h1, ?_⟩
  have := names0_length
  exact C28_all_partial (E := startEnv s' k) h2.rd rfl ht hno (by show startNames.length + _ < k; exact Nat.lt_of_le_of_lt (Nat.add_le_add_right names0_length _) hk) (by rw [h3]; exact hf) hm

/-- A text with an open list, an open string, a closed comment, a vector and dots inside of names: `)(a.b #|c|# #(1 "`. -/
def openText : List Byte := [41, 40, 97, 46, 98, 32, 35, 124, 99, 124, 35, 32, 35, 40, 49, 32, 34]

/-- A position of a block comment or a dot, found by counting. -/
theorem at_split {t u v : List Byte} {x : Byte} (e : t = u ++ x :: v) : u.length < t.length ∧ t[u.length]? = some x ∧ t.drop (u.length + 1) = v := by
  subst e
  refine ⟨by simp, by simp, ?_⟩
  rw [show u ++ x :: v = (u ++ [x]) ++ v by simp, List.drop_left' (by simp)]

theorem openText_plain : PlainText false openText := by
  refine ⟨by decide, fun u v x hx e => ?_, fun u v e => ?_⟩
  · obtain ⟨h1, h2, h3⟩ := at_split e
    have h4 : (openText.drop (u.length + 1)).head? = some x := by rw [h3]; rfl
    have key : ∀ i < openText.length, openText[i]? = some 35 → ∀ x : Byte, x = 33 ∨ x = 124 → (openText.drop (i + 1)).head? = some x → i = 6 ∧ x = 124 := by
      intro i hi
      have : i < 17 := hi
      intro h x hx hh
      rcases hx with rfl | rfl
      · exact absurd hh (by revert h; revert i; decide)
      · exact ⟨by revert i; decide, rfl⟩
    obtain ⟨h5, rfl⟩ := key u.length h1 h2 x hx h4
    rw [h5] at h3
    refine ⟨[99], [32, 35, 40, 49, 32, 34], ?_⟩
    have : (124 : Byte) :: v = 124 :: ([99] ++ 124 :: 35 :: [32, 35, 40, 49, 32, 34]) := h3.symm
    exact (List.cons.inj this).2
  · obtain ⟨h1, h2, h3⟩ := at_split e
    have key : ∀ i < openText.length, openText[i]? = some 46 → i = 3 := by decide
    rw [key u.length h1 h2] at h3
    exact ⟨98, _, h3.symm, by unfold Inner; decide⟩

/-- The reader of a started interpreter ends on it. -/
example : ∃ s', initSymbols boot 1000 = ok s' ∧ readAll 1000 1000 100 s' (fileOf openText) ≠ loop :=
  C28_started_partial (by decide) (by decide) (fileOf_input _) openText_plain (by decide) (by decide) (by decide) (by decide)

end Mes.Props
