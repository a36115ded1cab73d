import Verif.Proof.Symbol
/-
The symbol table after `init_symbols`.
-/
namespace Mes
open Res Spec

theorem predefined_length : predefined.length = 113 := by decide
theorem predefined_tags : ∀ i : Nat, i < 113 → (predefined[i]?).map Prod.fst = some (if c_nil + (i : Int) < 46 then Tag.special else .symbol) := by
  decide +kernel
theorem predefined_hash : ∀ e ∈ predefined, 0 ≤ hashSum e.2 ∧ e.2.length ≤ 64 := by decide +kernel

theorem initSymbols_start {s : St} {fuel : Nat} (ha : 3000 ≤ s.arena) (hm : 64 ≤ s.maxString) (hf : 4 ≤ fuel) :
    ∃ s', initSymbols s fuel = ok s' ∧ SymTable s' 500 (stored predefined c_nil []) ∧ Fixed s' ∧ s'.free ≤ 2900 ∧
      c_symbol_max ≤ s'.free ∧ s'.arena = s.arena ∧ s'.maxString = s.maxString ∧ s'.safety = s.safety ∧ s'.stackSize = s.stackSize := by
  obtain ⟨h1, h2, h3, h4, h5, h6, h7⟩ := initSymbols0_ok predefined { s with free := c_nil, symbols := 0 }
  rw [predefined_length] at h1
  generalize hs0 : initSymbols0 predefined { s with free := c_nil, symbols := 0 } = s0 at *
  have hfree : s0.free = c_symbol_max := by rw [h1]; rfl
  have hfix : Fixed s0 := by
    intro a ha1 ha2
    obtain ⟨i, hi⟩ : ∃ i : Nat, a = c_nil + i := ⟨(a - c_nil).toNat, by omega⟩
    subst hi
    have hi : i < 113 := by simp only [c_nil, c_symbol_max] at ha2; omega
    have := predefined_tags i hi
    obtain ⟨e, he, ht⟩ := Option.map_eq_some_iff.1 this
    rw [← ht]
    exact h2 i e he
  have hroom : Room s0 2800 := ⟨by omega, by rw [hfree, h4]; simp only [c_symbol_max, g_cells]; omega⟩
  obtain ⟨t, s1, a1, a2, a3, a4, a5⟩ := makeHashTable_ok (s := s0) (K := stringKeys) stringKeys_ok (fuel := fuel) (m := 500)
    (n := 500) rfl (by decide) (by decide) (hroom.mono (by decide)) hfix hf
  have tab : SymTable { s1 with symbols := t } 500 [] := by
    exact ⟨a2.same ⟨rfl, rfl⟩, by simp⟩
  have hnc : nameCells predefined ≤ 1700 := by decide +kernel
  have hr1 : Room s1 1700 := hroom.step a3 (by omega)
  obtain ⟨s2, b1, b2, b3, b4, b5, b6, b7, b8, b9⟩ := initSymbols__ok (n := 500) predefined { s1 with symbols := t } c_nil [] tab
    (fun a h1 h2 => hfix.ext hroom.base a3 a h1 h2) (by decide) (by rw [predefined_length]; decide) (by simp)
    (fun i e hi => by
      have hlt : i < 113 := by
        rcases Nat.lt_or_ge i 113 with h | h
        · exact h
        · rw [List.getElem?_eq_none (by rw [predefined_length]; exact h)] at hi; cases hi
      have := predefined_tags i hlt
      rw [hi] at this
      simpa using this)
    (fun e he => ⟨(predefined_hash e he).1, by
      have := (predefined_hash e he).2
      show e.2.length ≤ s1.maxString
      rw [a3.maxString, h5]; exact Nat.le_trans this hm⟩)
    ⟨hr1.base, by have := hr1.room; show s1.free + _ - _ ≤ s1.arena; omega⟩
  refine ⟨{ s2 with ports := c_nil }, ?_, ?_, fun a h1 h2 => b3 a h1 h2, ?_, ?_, ?_, ?_, ?_, ?_⟩
  · simp only [initSymbols, hs0, a1, ok_bind, b1]
  · exact b2.same ⟨rfl, rfl⟩ rfl
  · show s2.free ≤ 2900
    have : ({ s1 with symbols := t } : St).free = s1.free := rfl
    simp only [c_symbol_max] at hfree
    omega
  · exact Int.le_trans hr1.base b6
  · exact b5.trans (a3.arena.trans h4)
  · exact b7.trans (a3.maxString.trans h5)
  · exact b8.trans (a3.safety'.trans h6)
  · exact b9.trans (a3.stackSize'.trans h7)

end Mes
