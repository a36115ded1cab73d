import Verif.Spec.Eval
import Verif.Model.Eval
import Verif.Proof.Hash
import Verif.Proof.Lists
/-
How the representation of programs and values in memory persists while the interpreter runs.
-/
namespace Mes
open Res Spec

variable {s s' s'' : St} {W W' W'' : Ghost} {M M' : Int → Prop} {mes : Bool}

/-- The later state `s'` with the later connection `W'`: cells that may not change are the same, the others keep their tag,
and pairs their car; locations keep their place.  Cells of the form that is expanded meanwhile are different: their cars
change, and when it is done they are fixed.  Other programs stay as they are. -/
structure Later (W : Ghost) (s : St) (W' : Ghost) (s' : St) : Prop where
  le : s.free ≤ s'.free
  same : ∀ a, a < s.free → ¬ W.chg a → s'.cell a = s.cell a
  tag : ∀ a, a < s.free → (s'.cell a).tag = (s.cell a).tag
  car : ∀ a, a < s.free → (s.cell a).tag = .pair → ¬ W.src a → (s'.cell a).car = (s.cell a).car
  count : W.count ≤ W'.count
  loc : ∀ l, l < W.count → W'.loc l = W.loc l
  chg : ∀ a, a < s.free → W'.chg a → W.chg a
  still : ∀ a, a < s.free → W.chg a → ¬ W.src a → W'.chg a
  name : W'.name = W.name
  kept : ∀ a, a < s.free → W'.src a → ¬ W.cur a → s'.cell a = s.cell a
  src : ∀ a, a < s.free → W'.src a → W.src a
  glob : ∀ x l, W.glob x = some l → W'.glob x = some l
  rest : ∀ a, a < s.free → W.src a → ¬ W.cur a → W'.src a
  cur : W'.cur = W.cur

/-- `s'` comes from `s` by allocation; registers and stack do not matter. -/
structure Grow (s s' : St) : Prop where
  le : s.free ≤ s'.free
  same : ∀ a, a < s.free → s'.cell a = s.cell a

theorem Grow.refl (s : St) : Grow s s := ⟨Int.le_refl _, fun _ _ => rfl⟩
theorem Grow.trans (h : Grow s s') (h' : Grow s' s'') : Grow s s'' :=
  ⟨Int.le_trans h.le h'.le, fun a ha => by rw [h'.same a (Int.lt_of_lt_of_le ha h.le), h.same a ha]⟩
theorem Spec.Frame.grow (h : Ext s s') : Grow s s' := ⟨h.le, fun a ha => h.same a ha id⟩
theorem Grow.valid (h : Grow s s') {a : Int} (hv : s.Valid a) : s'.Valid a := ⟨hv.1, Int.lt_of_lt_of_le hv.2 h.le⟩
theorem Grow.later (h : Grow s s') (W : Ghost) : Later W s W s' :=
  ⟨h.le, fun a ha _ => h.same a ha, fun a ha => by rw [h.same a ha], fun a ha _ _ => by rw [h.same a ha], Nat.le_refl _,
    fun _ _ => rfl, fun _ _ h => h, fun _ _ h _ => h, rfl, fun a ha _ _ => h.same a ha, fun _ _ h => h, fun _ _ h => h, fun _ _ h _ => h, rfl⟩

theorem Later.refl (W : Ghost) (s : St) : Later W s W s := (Grow.refl s).later W

theorem Later.trans (h : Later W s W' s') (h' : Later W' s' W'' s'') : Later W s W'' s'' where
  le := Int.le_trans h.le h'.le
  same := fun a ha hm => by
    have h1 := Int.lt_of_lt_of_le ha h.le
    rw [h'.same a h1 (fun hc => hm (h.chg a ha hc)), h.same a ha hm]
  tag := fun a ha => by rw [h'.tag a (Int.lt_of_lt_of_le ha h.le), h.tag a ha]
  car := fun a ha ht hs => by
    have h1 := Int.lt_of_lt_of_le ha h.le
    rw [h'.car a h1 (by rw [h.tag a ha]; exact ht) (fun hc => hs (h.src a ha hc)), h.car a ha ht hs]
  count := Nat.le_trans h.count h'.count
  loc := fun l hl => by rw [h'.loc l (Nat.lt_of_lt_of_le hl h.count), h.loc l hl]
  chg := fun a ha hc => h.chg a ha (h'.chg a (Int.lt_of_lt_of_le ha h.le) hc)
  still := fun a ha hc hs => h'.still a (Int.lt_of_lt_of_le ha h.le) (h.still a ha hc hs) (fun hc => hs (h.src a ha hc))
  name := by rw [h'.name, h.name]
  kept := fun a ha hm hc => by
    have h1 := Int.lt_of_lt_of_le ha h.le
    rw [h'.kept a h1 hm (by rw [h.cur]; exact hc), h.kept a ha (h'.src a h1 hm) hc]
  src := fun a ha hm => h.src a ha (h'.src a (Int.lt_of_lt_of_le ha h.le) hm)
  glob := fun x l hx => h'.glob x l (h.glob x l hx)
  rest := fun a ha hs hc => h'.rest a (Int.lt_of_lt_of_le ha h.le) (h.rest a ha hs hc) (by rw [h.cur]; exact hc)
  cur := by rw [h'.cur, h.cur]

theorem Later.valid (h : Later W s W' s') {a : Int} (hv : s.Valid a) : s'.Valid a :=
  ⟨hv.1, Int.lt_of_lt_of_le hv.2 h.le⟩

theorem Later.keep (h : Later W s W' s') {a : Int} (hv : s.Valid a) (hm : ¬ W.chg a) : s'.cell a = s.cell a :=
  h.same a hv.2 hm

theorem Later.fixed (h : Later W s W' s') {a : Int} (hv : s.Valid a) (hm : ¬ W.chg a) : ¬ W'.chg a :=
  fun hc => hm (h.chg a hv.2 hc)

theorem Spec.FixedPair.cell_eq {p : Int} (hp : FixedPair s W.chg p) (h : Later W s W' s') : s'.cell p = s.cell p :=
  h.keep hp.valid hp.fixed

theorem Spec.FixedPair.later {p : Int} (hp : FixedPair s W.chg p) (h : Later W s W' s') : FixedPair s' W'.chg p :=
  ⟨hp.ne, h.valid hp.valid, by rw [hp.cell_eq h]; exact hp.tag, h.fixed hp.valid hp.fixed⟩

theorem Spec.IsNum.later {a n : Int} (ha : IsNum s a n) (hm : ¬ W.chg a) (h : Later W s W' s') : IsNum s' a n :=
  ⟨h.valid ha.valid, by rw [h.keep ha.valid hm]; exact ha.tag, by rw [h.keep ha.valid hm]; exact ha.value⟩

theorem Spec.IsChar.later {a n : Int} (ha : IsChar s a n) (hm : ¬ W.chg a) (h : Later W s W' s') : IsChar s' a n :=
  ⟨h.valid ha.valid, by rw [h.keep ha.valid hm]; exact ha.tag, by rw [h.keep ha.valid hm]; exact ha.value⟩

theorem Spec.IsLiteral.later {a : Int} {d : Literal} (ha : IsLiteral s W.chg a d) (h : Later W s W' s') :
    IsLiteral s' W'.chg a d := by
  induction ha with
  | int h1 h2 => exact .int (h1.later h2 h) (h.fixed h1.valid h2)
  | char h1 h2 => exact .char (h1.later h2 h) (h.fixed h1.valid h2)
  | pair hp _ _ ih1 ih2 =>
    refine .pair (hp.later h) ?_ ?_
    · rw [hp.cell_eq h]; exact ih1
    · rw [hp.cell_eq h]; exact ih2
  | obj hv ht hu => exact .obj (h.valid hv) (by rw [h.tag _ hv.2]; exact ht) hu

theorem Spec.IsLiteral.valid {a : Int} {d : Literal} (ha : IsLiteral s M a d) : s.Valid a := by
  cases ha with
  | int h => exact h.valid
  | char h => exact h.valid
  | pair h => exact h.valid
  | obj h => exact h

theorem Spec.HasText.later {x : Int} {bs : List Byte} (ht : HasText s x bs) (h1 : ¬ W.chg x) (h2 : ¬ W.chg (s.cell x).cdr)
    (h : Later W s W' s') : HasText s' x bs := by
  have e1 := h.keep ht.valid h1
  have e2 := h.keep ht.bvalid h2
  exact ⟨h.valid ht.valid, by rw [e1]; exact ht.length, by rw [e1]; exact h.valid ht.bvalid, by rw [e1, e2]; exact ht.btag,
    by rw [e1, e2]; exact ht.bytes⟩

theorem Spec.IsName.later {x : Int} (hx : IsName s W x) (h : Later W s W' s') : IsName s' W' x := by
  have e1 := h.keep hx.text.valid hx.fixed
  refine ⟨?_, by rw [e1]; exact hx.tag, h.fixed hx.text.valid hx.fixed, ?_, by rw [h.name]; exact hx.ascii⟩
  · rw [h.name]; exact hx.text.later hx.fixed hx.bfixed h
  · rw [e1]; exact h.fixed hx.text.bvalid hx.bfixed

theorem Spec.IsFormals.later {f : Int} {fs : List Int} {r : Option Int} (hf : IsFormals s W.chg f fs r)
    (h : Later W s W' s') : IsFormals s' W'.chg f fs r := by
  induction hf with
  | nil => exact .nil
  | rest hv ht hm => exact .rest (h.valid hv) (by rw [h.tag _ hv.2]; exact ht) (h.fixed hv hm)
  | @cons p xs r hp hvx hx _ ih =>
    rw [← hp.cell_eq h] at ih hx hvx ⊢
    exact .cons (hp.later h) (h.valid hvx) (by rw [h.tag _ hvx.2]; exact hx) ih

mutual
theorem Spec.IsCode.valid {N : Idents} {c : Int} {e : Expr} : IsCode s W mes N c e → s.Valid c
  | .const h .. => h.valid
  | .quote h .. => h.valid
  | .var h .. => h.text.valid
  | .global h => h.valid
  | .ite h .. => h.valid
  | .ifOnly h .. => h.valid
  | .lam h .. => h.valid
  | .app h .. => h.valid
  | .begin h .. => h.valid
  | .set h .. => h.valid
end

theorem Spec.IsCode.fixed {N : Idents} {c : Int} {e : Expr} (h : IsCode s W mes N c e) : ¬ W.chg c := by
  cases h with
  | const _ _ h => exact h
  | quote h => exact h.fixed
  | var h => exact h.fixed
  | global h => exact h.fixed
  | ite h => exact h.fixed
  | ifOnly h => exact h.fixed
  | lam h => exact h.fixed
  | app h => exact h.fixed
  | begin h => exact h.fixed
  | set h => exact h.fixed

theorem Spec.IsGlobal.later {N : Idents} {c x : Int} (hc : IsGlobal s W N c x) (h : Later W s W' s') : IsGlobal s' W' N c x := by
  have e := h.keep hc.valid hc.fixed
  obtain ⟨l, h1, h2, h3⟩ := hc.loc
  exact ⟨h.valid hc.valid, by rw [e]; exact hc.tag, h.fixed hc.valid hc.fixed, hc.free,
    l, h.glob x l h1, Nat.lt_of_lt_of_le h2 h.count, by rw [e, h.loc l h2]; exact h3⟩

theorem Spec.IsTarget.later {N : Idents} {c x : Int} (h : Later W s W' s') : IsTarget s W N c x → IsTarget s' W' N c x
  | .name hi hn => .name (hi.later h) hn
  | .global hg => .global (hg.later h)

mutual
theorem Spec.IsCode.later {N : Idents} {c : Int} {e : Expr} (h : Later W s W' s') :
    IsCode s W mes N c e → IsCode s' W' mes N c e
  | .const hd ht hm => .const (hd.later h) (by rw [h.tag _ hd.valid.2]; exact ht) (h.fixed hd.valid hm)
  | .quote hc hh h1 hd => by
    refine .quote (hc.later h) (by rw [hc.cell_eq h]; exact hh) (by rw [hc.cell_eq h]; exact h1.later h) ?_
    rw [hc.cell_eq h, h1.cell_eq h]; exact hd.later h
  | .var hx hn hr => .var (hx.later h) hn hr
  | .global hg => .global (hg.later h)
  | .ite hc hh h1 he0 h2 he1 h3 he2 => by
    refine .ite (hc.later h) (by rw [hc.cell_eq h]; exact hh) (by rw [hc.cell_eq h]; exact h1.later h)
      (by rw [hc.cell_eq h, h1.cell_eq h]; exact he0.later h) (by rw [hc.cell_eq h, h1.cell_eq h]; exact h2.later h)
      (by rw [hc.cell_eq h, h1.cell_eq h, h2.cell_eq h]; exact he1.later h)
      (by rw [hc.cell_eq h, h1.cell_eq h, h2.cell_eq h]; exact h3.later h)
      (by rw [hc.cell_eq h, h1.cell_eq h, h2.cell_eq h, h3.cell_eq h]; exact he2.later h)
  | .ifOnly hc hh h1 he0 h2 he1 h3 => by
    refine .ifOnly (hc.later h) (by rw [hc.cell_eq h]; exact hh) (by rw [hc.cell_eq h]; exact h1.later h)
      (by rw [hc.cell_eq h, h1.cell_eq h]; exact he0.later h) (by rw [hc.cell_eq h, h1.cell_eq h]; exact h2.later h)
      (by rw [hc.cell_eq h, h1.cell_eq h, h2.cell_eq h]; exact he1.later h)
      (by rw [hc.cell_eq h, h1.cell_eq h, h2.cell_eq h]; exact h3)
  | .lam hc hh h1 hf hb hn => by
    refine .lam (hc.later h) (by rw [hc.cell_eq h]; exact hh) (by rw [hc.cell_eq h]; exact h1.later h)
      (by rw [hc.cell_eq h, h1.cell_eq h]; exact hf.later h) (by rw [hc.cell_eq h, h1.cell_eq h]; exact hb.later h) hn
  | .app hc hh hf ha hs => by
    refine .app (hc.later h) (by rw [hc.cell_eq h]; exact hh) (by rw [hc.cell_eq h]; exact hf.later h)
      (by rw [hc.cell_eq h]; exact ha.later h) hs
  | .begin hc hh hs hn =>
    .begin (hc.later h) (by rw [hc.cell_eq h]; exact hh) (by rw [hc.cell_eq h]; exact hs.later h) hn
  | .set hc hh h1 hx h2 he => by
    refine .set (hc.later h) (by rw [hc.cell_eq h]; exact hh) (by rw [hc.cell_eq h]; exact h1.later h)
      (by rw [hc.cell_eq h, h1.cell_eq h]; exact hx.later h) (by rw [hc.cell_eq h, h1.cell_eq h]; exact h2.later h)
      (by rw [hc.cell_eq h, h1.cell_eq h, h2.cell_eq h]; exact he.later h)
theorem Spec.IsSeq.later {N : Idents} {p : Int} {es : List Expr} (h : Later W s W' s') :
    IsSeq s W mes N p es → IsSeq s' W' mes N p es
  | .nil => .nil
  | .cons hp he hl ht => by
    refine .cons (hp.later h) (by rw [hp.cell_eq h]; exact he.later h) ?_ (by rw [hp.cell_eq h]; exact ht.later h)
    rw [hp.cell_eq h, h.keep he.valid he.fixed]
    exact hl
end

theorem Later.unsrc (h : Later W s W' s') {a : Int} (hv : s.Valid a) (hs : ¬ W.src a) : ¬ W'.src a :=
  fun hc => hs (h.src a hv.2 hc)

theorem Spec.Assq.later {x r : Int} {o : Option Int} (ha : Assq s W x r o) (h : Later W s W' s') :
    Assq s' W' x r o := by
  induction ha with
  | nil => exact .nil
  | @here r hr hv ht hs hx =>
    have e := hr.cell_eq h
    rw [← e] at hv ht hs hx ⊢
    exact .here (hr.later h) (h.valid hv) (by rw [h.tag _ hv.2]; exact ht) (h.unsrc hv hs) (by rw [h.car _ hv.2 ht hs]; exact hx)
  | @next r o hr hv ht hs hx _ ih =>
    have e := hr.cell_eq h
    rw [← e] at hv ht hs hx ih
    exact .next (hr.later h) (h.valid hv) (by rw [h.tag _ hv.2]; exact ht) (h.unsrc hv hs) (by rw [h.car _ hv.2 ht hs]; exact hx) ih

theorem Spec.IsEnv.later {N : Idents} {r : Int} {ρ : Locals} (he : IsEnv s W N r ρ) (h : Later W s W' s') :
    IsEnv s' W' N r ρ := by
  intro x hx
  obtain ⟨h1, h2⟩ := he x hx
  refine ⟨?_, fun l hl => Nat.lt_of_lt_of_le (h2 l hl) h.count⟩
  have h3 := h1.later h
  cases hl : ρ x with
  | none => rw [hl] at h3; exact h3
  | some l => rw [hl] at h3; simp only [Option.map_some] at h3 ⊢; rw [h.loc l (h2 l hl)]; exact h3

theorem Spec.IsGlobal.names {N N' : Idents} {c x : Int} (hg : IsGlobal s W N c x) (hf : ∀ x, N.free x → N'.free x) : IsGlobal s W N' c x :=
  ⟨hg.valid, hg.tag, hg.fixed, hf x hg.free, hg.loc⟩

theorem Spec.IsTarget.names {N N' : Idents} {c x : Int} (hn : ∀ x, N x → N' x) (hf : ∀ x, N.free x → N'.free x) : IsTarget s W N c x → IsTarget s W N' c x
  | .name hi h => .name hi (hn _ h)
  | .global hg => .global (hg.names hf)

mutual
/-- The code does not become wrong when more names are known. -/
theorem Spec.IsCode.names {N N' : Idents} {c : Int} {e : Expr} (hn : ∀ x, N x → N' x) (hf : ∀ x, N.free x → N'.free x) :
    IsCode s W mes N c e → IsCode s W mes N' c e
  | .const h ht hm => .const h ht hm
  | .quote hc hh h1 hd => .quote hc hh h1 hd
  | .var hx h hr => .var hx (hn _ h) hr
  | .global hg => .global (hg.names hf)
  | .ite hc hh h1 he0 h2 he1 h3 he2 => .ite hc hh h1 (he0.names hn hf) h2 (he1.names hn hf) h3 (he2.names hn hf)
  | .ifOnly hc hh h1 he0 h2 he1 h3 => .ifOnly hc hh h1 (he0.names hn hf) h2 (he1.names hn hf) h3
  | .lam hc hh h1 hfo hb hne => .lam hc hh h1 hfo (Spec.IsSeq.names (N := N.under _ _) (N' := N'.under _ _) hn (fun x (h : N.free x ∧ _) => ⟨hf x h.1, h.2⟩) hb) hne
  | .app hc hh hfn ha hs => .app hc hh (hfn.names hn hf) (ha.names hn hf) hs
  | .begin hc hh hs hne => .begin hc hh (hs.names hn hf) hne
  | .set hc hh h1 hx h2 he => .set hc hh h1 (hx.names hn hf) h2 (he.names hn hf)

theorem Spec.IsSeq.names {N N' : Idents} {p : Int} {es : List Expr} (hn : ∀ x, N x → N' x) (hf : ∀ x, N.free x → N'.free x) :
    IsSeq s W mes N p es → IsSeq s W mes N' p es
  | .nil => .nil
  | .cons hp he hl h => .cons hp (he.names hn hf) hl (h.names hn hf)
end

theorem Spec.IsScope.later {N : Idents} {r : Int} {ρ : Locals} (he : IsScope s W N r ρ) (h : Later W s W' s') :
    IsScope s' W' N r ρ := by
  have e := he.pair.cell_eq h
  refine ⟨he.pair.later h, by rw [e]; exact h.valid he.valid, ?_, by rw [e]; exact h.unsrc he.valid he.src, ?_, he.mark, by rw [e]; exact he.env.later h, he.free⟩
  · rw [e, h.tag _ he.valid.2]; exact he.tag
  · rw [e, h.car _ he.valid.2 he.tag he.src]; exact he.key

theorem Spec.IsBuiltin.later {a n id : Int} (hb : IsBuiltin s W.chg a n id) (h : Later W s W' s') :
    IsBuiltin s' W'.chg a n id := by
  have e := h.keep hb.valid hb.fixed
  have e2 := h.keep hb.kvalid hb.kfixed
  exact ⟨h.valid hb.valid, by rw [e]; exact hb.tag, by rw [e]; exact hb.length, h.fixed hb.valid hb.fixed,
    by rw [e]; exact h.valid hb.kvalid, by rw [e, e2]; exact hb.ktag, by rw [e, e2]; exact hb.kind,
    by rw [e]; exact h.fixed hb.kvalid hb.kfixed, by rw [e]; exact hb.arity.later hb.afixed h,
    by rw [e]; exact h.fixed hb.arity.valid hb.afixed, by rw [e]; exact hb.function.later hb.ffixed h,
    by rw [e]; exact h.fixed hb.function.valid hb.ffixed⟩

theorem Spec.IsVal.later {a : Int} {v : Value} (hv : IsVal s W mes a v) (h : Later W s W' s') : IsVal s' W' mes a v := by
  induction hv with
  | int h1 h2 => exact .int (h1.later h2 h) (h.fixed h1.valid h2)
  | char h1 h2 => exact .char (h1.later h2 h) (h.fixed h1.valid h2)
  | pair hp _ _ ih1 ih2 =>
    refine .pair (hp.later h) ?_ ?_
    · rw [hp.cell_eq h]; exact ih1
    · rw [hp.cell_eq h]; exact ih2
  | obj hv ht hu => exact .obj (h.valid hv) (by rw [h.tag _ hv.2]; exact ht) hu
  | prim hb => exact .prim (hb.later h)
  | @clo a N fs r b ρ hv ht hm h0 h1 h2 hρ h3 hf hb hn hN hfree =>
    have e := h.keep hv hm
    have e0 := h0.cell_eq h
    have e1 := h1.cell_eq h
    have e2 := h2.cell_eq h
    have e3 := h3.cell_eq h
    refine .clo (N := N) (h.valid hv) (by rw [e]; exact ht) (h.fixed hv hm) (by rw [e]; exact h0.later h)
      (by rw [e, e0]; exact h1.later h) (by rw [e, e0, e1]; exact h2.later h) (by rw [e, e0, e1, e2]; exact hρ.later h)
      (by rw [e, e0]; exact h3.later h) (by rw [e, e0, e3]; exact hf.later h) (by rw [e, e0, e3]; exact hb.later h) hn hN hfree

theorem Spec.IsVal.valid {a : Int} {v : Value} (h : IsVal s W mes a v) : s.Valid a := by
  cases h with
  | int h => exact h.valid
  | char h => exact h.valid
  | pair h => exact h.valid
  | obj h => exact h
  | prim h => exact h.valid
  | clo h => exact h

theorem Spec.IsVals.later {a : Int} {vs : List Value} (hv : IsVals s W mes a vs) (h : Later W s W' s') :
    IsVals s' W' mes a vs := by
  induction hv with
  | nil => exact .nil
  | cons hp hv _ ih => exact .cons (hp.later h) (by rw [hp.cell_eq h]; exact hv.later h) (by rw [hp.cell_eq h]; exact ih)

theorem Spec.Items.later {p : Int} {xs : List Int} (hi : Items s W.chg p xs) (h : Later W s W' s') : Items s' W'.chg p xs := by
  induction hi with
  | nil => exact .nil
  | cons hp _ ih =>
    rw [← hp.cell_eq h] at ih ⊢
    exact .cons (hp.later h) ih

/-- The table of global variables later, when its buckets are the same. -/
theorem Spec.Globals.later {t : Int} {n : Nat} {H : List (Int × Int)} (hg : Globals s W t n H) (h : Later W s W' s')
    (hb : ∀ i : Nat, i < n → s'.cell ((s.cell (bucketsOf s t)).cdr + i) = s.cell ((s.cell (bucketsOf s t)).cdr + i)) :
    Globals s' W' t n H := by
  have e := h.keep hg.valid hg.fixed
  have er := h.keep hg.rvalid hg.rfixed
  have eb : bucketsOf s' t = bucketsOf s t := by unfold bucketsOf; rw [e, er]
  have ev := h.keep hg.vvalid hg.vfixed
  refine ⟨h.valid hg.valid, by rw [e]; exact hg.tag, by rw [e]; exact hg.length, h.fixed hg.valid hg.fixed,
    by rw [e]; exact hg.size.later hg.sfixed h, by rw [e]; exact h.fixed hg.size.valid hg.sfixed,
    by rw [e]; exact h.valid hg.rvalid, by rw [e, er]; exact hg.rtag, by rw [e]; exact h.fixed hg.rvalid hg.rfixed,
    by rw [eb]; exact h.valid hg.vvalid, by rw [eb, ev]; exact hg.vtag, by rw [eb, ev]; exact hg.vlength,
    by rw [eb]; exact h.fixed hg.vvalid hg.vfixed, hg.pos, hg.small, ?_, ?_, ?_, ?_, ?_, ?_, ?_⟩
  · rw [eb, ev]; exact fun i hi => h.valid (hg.bvalid i hi)
  · rw [eb, ev]; exact fun i hi => by rw [h.tag _ (hg.bvalid i hi).2]; exact hg.btag i hi
  · rw [eb, ev]; exact fun i hi => h.still _ (hg.bvalid i hi).2 (hg.bmut i hi) (hg.bsrc i hi)
  · rw [eb, ev]; exact fun i hi hc => hg.bsrc i hi (h.src _ (hg.bvalid i hi).2 hc)
  · rw [eb, ev]
    intro i hi
    rw [hb i hi, h.name]
    exact ⟨(hg.bucket i hi).1, fun hne => ((hg.bucket i hi).2 hne).later h⟩
  · intro e he
    obtain ⟨h1, h2, h3, h4, h5, h6⟩ := hg.entry e he
    exact ⟨h.valid h1, by rw [h.tag _ h1.2]; exact h2, by rw [h.car _ h1.2 h2 h6]; exact h3, by rw [h.tag _ h5.2]; exact h4,
      h.valid h5, h.unsrc h1 h6⟩
  · rw [h.name]; exact hg.ascii

theorem Spec.Fixed.later (hf : Fixed s) (hb : c_symbol_max ≤ s.free) (h : Later W s W' s') : Fixed s' := by
  intro a h1 h2
  rw [h.tag a (Int.lt_of_lt_of_le h2 hb)]
  exact hf a h1 h2

theorem Grow.globals {t : Int} {n : Nat} {H : List (Int × Int)} (hg : Globals s W t n H) (h : Grow s s') :
    Globals s' W t n H := hg.later (h.later W) (fun i hi => h.same _ (hg.bvalid i hi).2)

theorem Spec.World.grow {σ : Store} (hw : World s W mes σ) (h : Grow s s') (hm : s'.m0 = s.m0) : World s' W mes σ := by
  have hl := h.later W
  obtain ⟨m1, m2, m3, m4, m5, m6, m7⟩ := hw.module
  have e1 := hl.keep m1 m4
  have e2 := hl.keep m5 m7
  refine ⟨Int.le_trans hw.base h.le, hw.tags.later hw.base hl, ?_, hw.count, fun a ha => Int.lt_of_lt_of_le (hw.below a ha) h.le,
    hw.chg, hw.inj, ?_, ?_, ?_, ?_, hw.global, hw.glob, hw.source, hw.lsrc⟩
  · rw [h.same _ (by have := hw.base; simp only [c_symbol_max, c_symbol_begin] at *; omega)]; exact hw.begin
  · intro l hlt
    obtain ⟨h1, h2⟩ := hw.pair l hlt
    exact ⟨h.valid h1, by rw [hl.tag _ h1.2]; exact h2⟩
  · intro l v hv
    have hlt : l < W.count := by rw [hw.count]; exact (List.getElem?_eq_some_iff.1 hv).1
    rw [h.same _ (hw.pair l hlt).1.2]
    exact (hw.holds l v hv).later hl
  · rw [hm, e1, e2]
    exact ⟨h.valid m1, m2, m3, m4, h.valid m5, m6, m7⟩
  · obtain ⟨n, H, g1, g2⟩ := hw.table
    refine ⟨n, H, ?_, g2⟩
    rw [hm, e1, e2]
    exact h.globals g1

/-- Storing the value of a location. -/
theorem Spec.World.set {σ : Store} (hw : World s W mes σ) {l : Nat} (hl : l < W.count) {a : Int} {v : Value}
    (hv : IsVal s W mes a v) {s' : St}
    (hcell : ∀ b, s'.cell b = if b = W.loc l then { s.cell (W.loc l) with cdr := a } else s.cell b)
    (hfree : s'.free = s.free) (hm : s'.m0 = s.m0) :
    Later W s W s' ∧ World s' W mes { σ with vals := σ.vals.set l v } := by
  have hlat : Later W s W s' := by
    refine ⟨by omega, fun b hb hc => ?_, fun b hb => ?_, fun b hb ht _ => ?_, Nat.le_refl _, fun _ _ => rfl, fun _ _ h => h,
      fun _ _ h _ => h, rfl, fun b hb hc _ => ?_, fun _ _ h => h, fun _ _ h => h, fun _ _ h _ => h, rfl⟩
    · rw [hcell, if_neg]; rintro rfl; exact hc (hw.chg l hl)
    · rw [hcell]; split
      · next h => rw [h]
      · rfl
    · rw [hcell]; split
      · next h => rw [h]
      · rfl
    · rw [hcell, if_neg]; rintro rfl; exact hw.lsrc l hl hc
  obtain ⟨m1, m2, m3, m4, m5, m6, m7⟩ := hw.module
  have e1 := hlat.keep m1 m4
  have e2 := hlat.keep m5 m7
  refine ⟨hlat, by rw [hfree]; exact hw.base, hw.tags.later hw.base hlat, ?_, by simp [hw.count],
    by rw [hfree]; exact hw.below, hw.chg, hw.inj, ?_, ?_, ?_, ?_, hw.global, hw.glob, hw.source, hw.lsrc⟩
  · rw [hcell, if_neg, hw.begin]
    intro e
    have := (hw.pair l hl).2
    rw [← e, hw.tags _ (by decide) (by decide)] at this
    simp [c_symbol_begin] at this
  · intro k hk
    obtain ⟨h1, h2⟩ := hw.pair k hk
    exact ⟨hlat.valid h1, by rw [hlat.tag _ h1.2]; exact h2⟩
  · intro k u hu
    simp only [List.getElem?_set] at hu
    split at hu
    · next h =>
      subst h
      simp only [hw.count ▸ hl, if_true, Option.some.injEq] at hu
      subst hu
      rw [hcell, if_pos rfl]
      exact hv.later hlat
    · next h =>
      have hk : k < W.count := by rw [hw.count]; exact (List.getElem?_eq_some_iff.1 hu).1
      rw [hcell, if_neg (fun e => h (hw.inj k l hk hl e).symm)]
      exact (hw.holds k u hu).later hlat
  · rw [hm, e1, e2]
    exact ⟨hlat.valid m1, m2, m3, m4, hlat.valid m5, m6, m7⟩
  · obtain ⟨n, H, g1, g2⟩ := hw.table
    refine ⟨n, H, ?_, g2⟩
    rw [hm, e1, e2]
    refine g1.later hlat (fun i hi => ?_)
    rw [hcell, if_neg]
    intro e
    have h1 := g1.btag i hi
    rw [e, (hw.pair l hl).2] at h1
    cases h1

end Mes
