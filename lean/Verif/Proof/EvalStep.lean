import Verif.Proof.MovesCall
/-
What a subevaluation leaves behind.
-/
namespace Mes
open Res Spec Gc

variable {mv : Prop} {K : Calls} {s s' s'' s1 : St} {W W' W1 : Ghost} {mes : Bool} {σ : Store} {N : Idents} {ρ : Locals} {a : Int}

/-! ### What an evaluation does -/

/-- Evaluating a subexpression in a new frame, at the label `l`; `P` is what holds of the result. -/
def Sub (mv : Prop) (K : Calls) (mes : Bool) (l : Label) (k : Nat) (σ' : Store) (P : Ghost → St → Prop) (W : Ghost) (s : St) : Prop :=
  ∀ x gp mp, ∃ W' s' x', Walk mv K ⟨l, s, x, gp, mp⟩ ⟨.dispatch, s', x', gp, mp⟩ ∧ Popped s s' ∧ Later W s W' s' ∧
    World s' W' mes σ' ∧ s'.free ≤ s.free + k ∧ P W' s'

theorem Sub.mono {l : Label} {k k' : Nat} {σ' : Store} {P Q : Ghost → St → Prop} (h : Sub mv K mes l k σ' P W s) (hk : k ≤ k')
    (hp : ∀ W' s', Later W s W' s' → P W' s' → Q W' s') : Sub mv K mes l k' σ' Q W s := by
  intro x gp mp
  obtain ⟨W', s', x', h1, h2, h3, h4, h5, h6⟩ := h x gp mp
  exact ⟨W', s', x', h1, h2, h3, h4, by omega, hp W' s' h3 h6⟩

/-- A tail call: steps that only allocate before another label runs to the end. -/
theorem Sub.tail {l l' : Label} {k j : Nat} {σ' : Store} {P : Ghost → St → Prop} (h : Sub mv K mes l' k σ' P W' s')
    (hs : ∀ x gp mp, ∃ x', Walk mv K ⟨l, s, x, gp, mp⟩ ⟨l', s', x', gp, mp⟩) (hk : SameStack s s') (hl : Later W s W' s')
    (hf : s'.free ≤ s.free + j) : Sub mv K mes l (j + k) σ' P W s := by
  intro x gp mp
  obtain ⟨x1, g⟩ := hs x gp mp
  obtain ⟨W2, s2, x2, h1, h2, h3, h4, h5, h6⟩ := h x1 gp mp
  exact ⟨W2, s2, x2, g.trans h1, hk.popped h2, hl.trans h3, h4, by omega, h6⟩

/-- A non-tail call: push a frame, run, and continue at the label of the frame. -/
theorem Sub.call {l l' l'' : Label} {k k' j : Nat} {σ' σ'' : Store} {P Q : Ghost → St → Prop} {p1 p2 c : Int}
    (h : Sub mv K mes l' k σ' P W1 (s1.pushed p1 p2 a c))
    (hs : ∀ x gp mp, ∃ x', Walk mv K ⟨l, s, x, gp, mp⟩ ⟨l', s1.pushed p1 p2 a c, x', gp, mp⟩) (hk : SameStack s s1)
    (hl : Later W s W1 s1) (hf : s1.free ≤ s.free + j) (hc : labelOf c = some l'')
    (hn : ∀ W' s', Back s1 p2 c s' → Later W1 s1 W' s' → World s' W' mes σ' → s'.free ≤ s1.free + k → P W' s' →
      Sub mv K mes l'' k' σ'' Q W' s') : Sub mv K mes l (j + k + k') σ'' Q W s := by
  intro x gp mp
  obtain ⟨x1, g⟩ := hs x gp mp
  obtain ⟨W2, s2, x2, h1, h2, h3, h4, h5, h6⟩ := h x1 gp mp
  have hb := h2.back
  have hl2 : Later W1 s1 W2 s2 := ((grow_pushed s1 p1 p2 a c).later W1).trans h3
  have h5' : s2.free ≤ s1.free + k := h5
  obtain ⟨W3, s3, x3, i1, i2, i3, i4, i5, i6⟩ := hn W2 s2 hb hl2 h4 h5' h6 x2 gp mp
  refine ⟨W3, s3, x3, g.trans (h1.trans (.trans (.dispatch (by rw [hb.r3]; exact hc)) i1)), (hk.trans hb.keeps).popped i2,
    hl.trans (hl2.trans i3), i4, by omega, i6⟩

/-- Returning with the value in `r1`. -/
theorem Sub.ret {k d : Nat} {P : Ghost → St → Prop} (h : Ready s k d) (hw : World s W mes σ)
    (hp : ∀ s', Grow s s' → s'.r1 = s.r1 → P W s') : Sub mv K mes .vmReturn 0 σ P W s := by
  intro x gp mp
  have hg : Grow s { s.popped with r1 := s.r1 } := ⟨Int.le_refl _, fun _ _ => rfl⟩
  exact ⟨W, _, x, .ret h, popped_popped _, hg.later W, hw.grow hg rfl, by show s.free ≤ s.free + ((0 : Nat) : Int); omega, hp _ hg rfl⟩

/-- The result is `v`. -/
def Gives (mes : Bool) (v : Value) (W : Ghost) (s : St) : Prop := IsVal s W mes s.r1 v
/-- The result is the list of `vs`. -/
def GivesAll (mes : Bool) (vs : List Value) (W : Ghost) (s : St) : Prop := IsVals s W mes s.r1 vs

theorem Sub.retVal {k d : Nat} {v : Value} (h : Ready s k d) (hw : World s W mes σ) (hv : IsVal s W mes s.r1 v) :
    Sub mv K mes .vmReturn 0 σ (Gives mes v) W s :=
  .ret h hw fun s' hg he => by unfold Gives; rw [he]; exact hv.later (hg.later W)

end Mes
