import Verif.Proof.Program
import Verif.Proof.EvalFail
/-
Programs that raise an error.
-/
namespace Mes
open Res Spec Gc

variable {s s' : St} {W W' : Ghost} {mes : Bool} {σ σ' : Store} {N : Idents} {K : Calls} {d k : Nat}
  {δ : Int → Int → List Value → Value → Prop} {ε : Int → Int → List Value → Key → Prop} {T : Int → Prop} {key : Key}

/-- The machine raises the error of a top level form whose variables may be expanded. -/
def SourceFails (K : Calls) (mes : Bool) (T : Int → Prop) (k d : Nat) (σ : Store) (f : Toplevel) (key : Key) : Prop :=
  ∀ W s N L, Ready s k d → LoadPre mes σ W s N L → Strings s W T → IsTop s W mes N s.r1 f L → FailsAt False K .eval s key

theorem source_fails (hK : Implements K.builtin mes δ) (hE : Raises K.builtin mes ε) {f : Toplevel} (h : FailForm mes δ ε T d σ f key) :
    ∃ k, SourceFails K mes T k d σ f key := by
  obtain ⟨k, hk⟩ := top_fail (mv := False) hK hE (fun q => q.elim) (fun q => q.elim) h
  refine ⟨k, fun W s N L hr hp hT ht => ?_⟩
  have hL : ∀ a ∈ L, W.src a ∧ W.cur a := fun a ha => ⟨(ht.bound a ha).src, hp.cur a ha⟩
  have hl := take_later W s hL
  rcases ht.take hL with hform | ⟨t, g, fs, r, b, L', rfl, rfl, -⟩
  · exact hk _ s N hr (take_world hp.world hL) (hT.later hl) hform (hp.scope.later hl) hp.key
  · cases h with
    | define h => cases h

/-- The machine raises the error of a program. -/
def ProgramFails (K : Calls) (mes : Bool) (T : Int → Prop) (k d : Nat) (σ : Store) (fs : List Toplevel) (key : Key) : Prop :=
  ∀ W s N n L, Ready s k d → ProgramPre mes σ W n N s → Strings s W T → IsProgram s W mes N s.r1 fs L → L.Nodup → (∀ a ∈ L, ¬ W.cur a) →
    FailsAt False K .beginExpandLoop s key

theorem load_fails (hK : Implements K.builtin mes δ) (hE : Raises K.builtin mes ε) {fs : List Toplevel} (h : LoadFails mes δ ε T d σ fs key) :
    ∃ k, ProgramFails K mes T k (max (programDepth fs) d + 1) σ fs key := by
  induction h with
  | @head σ f fs key hf =>
    obtain ⟨k1, h1⟩ := source_fails hK hE hf
    refine ⟨fs.length + 1 + (topMacroCells f + (topCells f + k1)), fun W s N n L hr hp hT hpr hnd hcur x gp mp => ?_⟩
    have hdep : programDepth (f :: fs) = max (topMacroDepth f) (programDepth fs) := rfl
    obtain ⟨s1, L1, L2, rfl, b1, b2, b3, b4, b5, b6, b7⟩ := load_start (K := K) hr hp.free.macros.world hpr
    have hr1 := hr.adv (k' := topMacroCells f + (topCells f + k1)) b1 (by omega)
    obtain ⟨nd1, nd2, nd3⟩ := List.nodup_append.1 hnd
    have hw1 : World s1 W mes _ := hp.free.macros.world.grow b2 b1.keeps.consts.m0
    have hp1 := hp.later b1.later hw1 b1.keeps.consts.macros b3 fun _ _ => rfl
    obtain ⟨W2, s3, w1, P⟩ := load_expand (K := K) (k := k1) (d := d) (hr1.mono (by omega) (by omega)) hp1 b4 b5 b6 nd1
      (fun a ha => ⟨hcur a (List.mem_append_right _ ha), fun hc => nd3 a hc a ha rfl⟩) x gp mp
    have hT3 : Strings s3 W2 T := fun a ha => by
      obtain ⟨t1, t2, t3⟩ := hT.later b1.later a ha
      obtain ⟨u1, u2, u3⟩ := P.kept a t1 t3
      exact ⟨u1, by rw [u2]; exact t2, u3⟩
    refine Walk.falls (.trans ?_ ((b7 x gp mp).trans w1)) (h1 _ _ N L1 P.ready P.load (hT3.later ((grow_pushed ..).later W2)) P.top x gp mp)
    refine .one (fun q => q.elim) fun fuel => ?_
    have hne : s.r1 ≠ c_nil := hpr.ne nofun
    simp only [step, if_neg hne]
  | @tail σ σ₁ f fs v key hf hs ih =>
    obtain ⟨k2, ih⟩ := ih
    obtain ⟨k1, h1⟩ := source hK hf
    refine ⟨fs.length + 1 + (topMacroCells f + (topCells f + k1) + k2), fun W s N n L hr hp hT hpr hnd hcur x gp mp => ?_⟩
    have hdep : programDepth (f :: fs) = max (topMacroDepth f) (programDepth fs) := rfl
    obtain ⟨s1, L1, L2, rfl, b1, b2, b3, b4, b5, b6, b7⟩ := load_start (K := K) hr hp.free.macros.world hpr
    have hr1 := hr.adv (k' := topMacroCells f + (topCells f + k1) + k2) b1 (by omega)
    obtain ⟨nd1, nd2, nd3⟩ := List.nodup_append.1 hnd
    have hw1 : World s1 W mes _ := hp.free.macros.world.grow b2 b1.keeps.consts.m0
    have hp1 := hp.later b1.later hw1 b1.keeps.consts.macros b3 fun _ _ => rfl
    obtain ⟨W2, s2, x2, gp2, mp2, e1, e2, e3, e4, e5, e6, e7, e8, e9⟩ := load_form hf h1 (hr1.mono (by omega) (by omega)) hp1 b4 b5 b6 nd1
      (fun a ha => ⟨hcur a (List.mem_append_right _ ha), fun hc => nd3 a hc a ha rfl⟩) x gp mp
    have hr2 := hr1.keeps (k' := k2) e2 e3 e4 (Nat.le_refl _)
    have hT2 : Strings s2 W2 T := fun a ha => by
      obtain ⟨t1, t2, t3⟩ := hT.later b1.later a ha
      obtain ⟨u1, u2, u3⟩ := e9 a t1 t3
      exact ⟨u1, by rw [u2]; exact t2, u3⟩
    refine Walk.falls (.trans ?_ ((b7 x gp mp).trans e1)) (ih W2 s2 N n L2 (hr2.mono (Nat.le_refl _) (by omega)) e6 hT2 e7 nd2 e8 x2 gp2 mp2)
    refine .one (fun q => q.elim) fun fuel => ?_
    have hne : s.r1 ≠ c_nil := hpr.ne nofun
    simp only [step, if_neg hne]

end Mes
