import Verif.Proof.Expand
import Verif.Proof.EvalDefine
/-
Programs after their variables are expanded.
-/
namespace Mes
open Res Spec

variable {s s' : St} {W W' : Ghost} {mes : Bool} {σ σ' : Store} {N : Idents} {ρ : Locals}

/-! ### Changes of the connection alone -/

theorem Spec.World.ghost (hw : World s W mes σ) (hl : Later W s W' s) (hc : W'.count = W.count)
    (hs : ∀ a, W'.src a → W'.chg a) (hb : ∀ a, W'.chg a → W.chg a) (hb' : ∀ a, W'.src a → W.src a)
    (hg : ∀ x l, W'.glob x = some l → σ.globals x = some l) : World s W' mes σ := by
  obtain ⟨m1, m2, m3, m4, m5, m6, m7⟩ := hw.module
  refine ⟨hw.base, hw.tags, hw.begin, by rw [hc, hw.count], fun a ha => hw.below a (hb a ha), fun l h => ?_, fun l l' h h' e => ?_, fun l h => ?_, fun l v hv => ?_,
    ⟨m1, m2, m3, fun h => m4 (hb _ h), m5, m6, fun h => m7 (hb _ h)⟩, ?_, fun x l h => by rw [hc]; exact hw.global x l h, hg, hs, fun l h hcc => ?_⟩
  · rw [hc] at h
    rw [hl.loc l h]
    exact hl.still _ (hw.pair l h).1.2 (hw.chg l h) (hw.lsrc l h)
  · rw [hc] at h h'
    rw [hl.loc l h, hl.loc l' h'] at e
    exact hw.inj l l' h h' e
  · rw [hc] at h
    rw [hl.loc l h]
    exact hw.pair l h
  · have h : l < W.count := by rw [hw.count]; exact (List.getElem?_eq_some_iff.1 hv).1
    rw [hl.loc l h]
    exact (hw.holds l v hv).later hl
  · obtain ⟨n, H, g1, g2⟩ := hw.table
    refine ⟨n, H, g1.later hl fun _ _ => rfl, fun x => ?_⟩
    rw [g2]
    cases hx : σ.globals x with
    | none => rfl
    | some l => simp only [Option.map_some]; rw [hl.loc l (hw.global x l hx)]
  · rw [hc] at h
    rw [hl.loc l h] at hcc
    exact hw.lsrc l h (hb' _ hcc)

/-- The pairs in `L` change no more. -/
def Spec.Ghost.take (W : Ghost) (L : List Int) : Ghost :=
  { W with chg := fun a => W.chg a ∧ a ∉ L, src := fun a => W.src a ∧ a ∉ L }

theorem take_later {L : List Int} (W : Ghost) (s : St) (hL : ∀ a ∈ L, W.src a ∧ W.cur a) : Later W s (W.take L) s where
  le := Int.le_refl _
  same := fun _ _ _ => rfl
  tag := fun _ _ => rfl
  car := fun _ _ _ _ => rfl
  count := Nat.le_refl _
  loc := fun _ _ => rfl
  chg := fun _ _ h => h.1
  still := fun a _ h h' => ⟨h, fun hm => h' (hL a hm).1⟩
  name := rfl
  kept := fun _ _ _ _ => rfl
  src := fun _ _ h => h.1
  glob := fun _ _ h => h
  rest := fun a _ h h' => ⟨h, fun hm => h' (hL a hm).2⟩
  cur := rfl

theorem take_world {L : List Int} (hw : World s W mes σ) (hL : ∀ a ∈ L, W.src a ∧ W.cur a) : World s (W.take L) mes σ :=
  hw.ghost (take_later W s hL) rfl (fun a h => ⟨hw.source a h.1, h.2⟩) (fun _ h => h.1) (fun _ h => h.1) hw.glob

/-- Expanded code may use the global variables there are now. -/
def Spec.Ghost.know (W : Ghost) (g : Int → Option Nat) : Ghost := { W with glob := g }

theorem know_later {g : Int → Option Nat} (W : Ghost) (s : St) (hg : ∀ x l, W.glob x = some l → g x = some l) : Later W s (W.know g) s where
  le := Int.le_refl _
  same := fun _ _ _ => rfl
  tag := fun _ _ => rfl
  car := fun _ _ _ _ => rfl
  count := Nat.le_refl _
  loc := fun _ _ => rfl
  chg := fun _ _ h => h
  still := fun _ _ h _ => h
  name := rfl
  kept := fun _ _ _ _ => rfl
  src := fun _ _ h => h
  glob := hg
  rest := fun _ _ h _ => h
  cur := rfl

theorem know_world (hw : World s W mes σ) : World s (W.know σ.globals) mes σ :=
  hw.ghost (know_later W s hw.glob) rfl hw.source (fun _ h => h) (fun _ h => h) fun _ _ h => h

/-- The next form is loaded. -/
def Spec.Ghost.now (W : Ghost) (L : List Int) : Ghost := { W with cur := fun a => W.cur a ∨ a ∈ L }

theorem Spec.IsName.now {x : Int} (h : IsName s W x) (L : List Int) : IsName s (W.now L) x := ⟨h.text, h.tag, h.fixed, h.bfixed, h.ascii⟩
theorem Spec.IsGlobal.now {c x : Int} (h : IsGlobal s W N c x) (L : List Int) : IsGlobal s (W.now L) N c x := ⟨h.valid, h.tag, h.fixed, h.free, h.loc⟩
theorem Spec.IsTarget.now {c x : Int} (h : IsTarget s W N c x) (L : List Int) : IsTarget s (W.now L) N c x := by
  cases h with
  | name hi hn => exact .name (hi.now L) hn
  | global h => exact .global (h.now L)

mutual
theorem Spec.IsCode.now {N : Idents} {c : Int} {e : Expr} (L : List Int) : IsCode s W mes N c e → IsCode s (W.now L) mes N c e
  | .const h ht hm => .const h ht hm
  | .quote hc hh h1 hd => .quote hc hh h1 hd
  | .var hx hn hr => .var (hx.now L) hn hr
  | .global h => .global (h.now L)
  | .ite hc hh h1 e0 h2 e1 h3 e2 => .ite hc hh h1 (e0.now L) h2 (e1.now L) h3 (e2.now L)
  | .ifOnly hc hh h1 e0 h2 e1 h3 => .ifOnly hc hh h1 (e0.now L) h2 (e1.now L) h3
  | .lam hc hh h1 hf hb hn => .lam hc hh h1 hf (hb.now L) hn
  | .app hc hh hf ha hs => .app hc hh (hf.now L) (ha.now L) hs
  | .begin hc hh hs hn => .begin hc hh (hs.now L) hn
  | .set hc hh h1 hx h2 he => .set hc hh h1 (hx.now L) h2 (he.now L)
theorem Spec.IsSeq.now {N : Idents} {p : Int} {es : List Expr} (L : List Int) : IsSeq s W mes N p es → IsSeq s (W.now L) mes N p es
  | .nil => .nil
  | .cons hp he hl h => .cons hp (he.now L) hl (h.now L)
end

theorem Spec.Assq.now {x r : Int} {o : Option Int} (L : List Int) (h : Assq s W x r o) : Assq s (W.now L) x r o := by
  induction h with
  | nil => exact .nil
  | here hr hv ht hs hx => exact .here hr hv ht hs hx
  | next hr hv ht hs hx _ ih => exact .next hr hv ht hs hx ih

theorem Spec.IsEnv.now {r : Int} {ρ : Locals} (L : List Int) (h : IsEnv s W N r ρ) : IsEnv s (W.now L) N r ρ :=
  fun x hx => ⟨(h x hx).1.now L, (h x hx).2⟩

theorem Spec.IsScope.now {r : Int} {ρ : Locals} (L : List Int) (h : IsScope s W N r ρ) : IsScope s (W.now L) N r ρ :=
  ⟨h.pair, h.valid, h.tag, h.src, h.key, h.mark, h.env.now L, h.free⟩

theorem Spec.IsVal.now {a : Int} {v : Value} (L : List Int) (h : IsVal s W mes a v) : IsVal s (W.now L) mes a v := by
  induction h with
  | int h hm => exact .int h hm
  | char h hm => exact .char h hm
  | pair hp _ _ hx hy => exact .pair hp hx hy
  | obj hv ht hu => exact .obj hv ht hu
  | prim h => exact .prim h
  | clo hv ht hm h0 h1 h2 hρ h3 hf hb hn hN hfree => exact .clo hv ht hm h0 h1 h2 (hρ.now L) h3 hf (hb.now L) hn hN hfree

theorem Spec.World.now (hw : World s W mes σ) (L : List Int) : World s (W.now L) mes σ := by
  obtain ⟨n, H, h, h'⟩ := hw.table
  exact ⟨hw.base, hw.tags, hw.begin, hw.count, hw.below, hw.chg, hw.inj, hw.pair, fun l v hv => (hw.holds l v hv).now L, hw.module,
    ⟨n, H, ⟨h.valid, h.tag, h.length, h.fixed, h.size, h.sfixed, h.rvalid, h.rtag, h.rfixed, h.vvalid, h.vtag, h.vlength, h.vfixed, h.pos,
      h.small, h.bvalid, h.btag, h.bmut, h.bsrc, h.bucket, h.entry, h.ascii⟩, h'⟩, hw.global, hw.glob, hw.source, hw.lsrc⟩

mutual
theorem Spec.IsSource.now {N : Idents} {c : Int} {e : Expr} {L : List Int} (C : List Int) : IsSource s W mes N c e L → IsSource s (W.now C) mes N c e L
  | .const h ht hm => .const h ht hm
  | .quote hc hh h1 hd => .quote hc hh h1 hd
  | .var hx hn hr hk hs => .var (hx.now C) hn hr hk hs
  | .global h => .global (h.now C)
  | .ite hc hh h => .ite ⟨hc.1, hc.2, hc.3, hc.4⟩ hh (h.now C)
  | .ifOnly hc hh h => .ifOnly ⟨hc.1, hc.2, hc.3, hc.4⟩ hh (h.now C)
  | .lam hc hh h1 hf hb hn => .lam ⟨hc.1, hc.2, hc.3, hc.4⟩ hh ⟨h1.1, h1.2, h1.3, h1.4⟩ hf (hb.now C) hn
  | .app hc hh hf ha hs => .app ⟨hc.1, hc.2, hc.3, hc.4⟩ hh (hf.now C) (ha.now C) hs
  | .begin hc hh hs hn => .begin ⟨hc.1, hc.2, hc.3, hc.4⟩ hh (hs.now C) hn
  | .set hc hh h1 hx hk h => .set ⟨hc.1, hc.2, hc.3, hc.4⟩ hh ⟨h1.1, h1.2, h1.3, h1.4⟩ (hx.now C) hk (h.now C)
theorem Spec.IsSources.now {N : Idents} {p : Int} {es : List Expr} {L : List Int} (C : List Int) : IsSources s W mes N p es L → IsSources s (W.now C) mes N p es L
  | .nil => .nil
  | .cons hp he hl h => .cons ⟨hp.1, hp.2, hp.3, hp.4⟩ (he.now C) hl (h.now C)
end

theorem Spec.IsTop.now {c : Int} {f : Toplevel} {L : List Int} (C : List Int) (h : IsTop s W mes N c f L) : IsTop s (W.now C) mes N c f L := by
  cases h with
  | expr h => exact .expr (h.now C)
  | define hc hh h1 hx hi hn hf he =>
    exact .define ⟨hc.1, hc.2, hc.3, hc.4⟩ hh ⟨h1.1, h1.2, h1.3, h1.4⟩ hx (hi.now C) hn hf
      (he.imp (fun ⟨h0, he⟩ => ⟨h0, he.now C⟩) fun he => he.now C)
  | function hc hh h1 ht hp hx hi hn hf hs hb hne =>
    exact .function ⟨hc.1, hc.2, hc.3, hc.4⟩ hh ⟨h1.1, h1.2, h1.3, h1.4⟩ ht hp hx (hi.now C) hn hf hs (hb.now C) hne

/-! ### Expanded programs are code -/

theorem Spec.SrcPair.take {L : List Int} {p : Int} (h : SrcPair s W p) (hp : p ∈ L) : FixedPair s (W.take L).chg p :=
  ⟨h.ne, h.valid, h.tag, fun hc => hc.2 hp⟩

theorem Spec.IsSeq.elem {p : Int} {e : Expr} {es : List Expr} (h : IsSeq s W mes N p (e :: es)) :
    FixedPair s W.chg p ∧ IsCode s W mes N (s.cell p).car e ∧ IsSeq s W mes N (s.cell p).cdr es := by
  generalize hl : e :: es = l at h
  cases h with
  | nil => cases hl
  | cons hp he _ h => cases hl; exact ⟨hp, he, h⟩

theorem Spec.IsSeq.last {p : Int} (h : IsSeq s W mes N p []) : p = c_nil := by
  generalize hl : ([] : List Expr) = l at h
  cases h with
  | nil => rfl
  | cons => cases hl

mutual
/-- A program whose pairs do not change any more is code. -/
theorem Spec.IsSource.take {N : Idents} {c : Int} {e : Expr} {L' L : List Int} (hl : Later W s (W.take L') s) :
    IsSource s W mes N c e L → (∀ a ∈ L, a ∈ L') → IsCode s (W.take L') mes N c e
  | .const h ht hm, _ => .const (h.later hl) ht (hl.fixed h.valid hm)
  | .quote hc hh h1 hd, _ => .quote (hc.later hl) hh (h1.later hl) (hd.later hl)
  | .var hx hn hr _ _, _ => .var (hx.later hl) hn hr
  | .global h, _ => .global (h.later hl)
  | .ite hc hh h, hL => by
    obtain ⟨h1, h2, h3⟩ := (h.take hl fun a ha => hL a (List.mem_cons_of_mem _ ha)).elem
    obtain ⟨h4, h5, h6⟩ := h3.elem
    obtain ⟨h7, h8, _⟩ := h6.elem
    exact .ite (hc.take (hL _ (List.mem_cons_self ..))) hh h1 h2 h4 h5 h7 h8
  | .ifOnly hc hh h, hL => by
    obtain ⟨h1, h2, h3⟩ := (h.take hl fun a ha => hL a (List.mem_cons_of_mem _ ha)).elem
    obtain ⟨h4, h5, h6⟩ := h3.elem
    exact .ifOnly (hc.take (hL _ (List.mem_cons_self ..))) hh h1 h2 h4 h5 h6.last
  | .lam hc hh h1 hf hb hn, hL =>
    .lam (hc.take (hL _ (List.mem_cons_self ..))) hh (h1.take (hL _ (List.mem_cons_of_mem _ (List.mem_cons_self ..)))) (hf.later hl)
      (hb.take hl fun a ha => hL a (List.mem_cons_of_mem _ (List.mem_cons_of_mem _ ha))) hn
  | .app hc hh hf ha hs, hL =>
    .app (hc.take (hL _ (List.mem_cons_self ..))) hh (hf.take hl fun a ha => hL a (List.mem_cons_of_mem _ (List.mem_append_left _ ha)))
      (ha.take hl fun a ha => hL a (List.mem_cons_of_mem _ (List.mem_append_right _ ha))) hs
  | .begin hc hh hs hn, hL =>
    .begin (hc.take (hL _ (List.mem_cons_self ..))) hh (hs.take hl fun a ha => hL a (List.mem_cons_of_mem _ ha)) hn
  | .set hc hh h1 hx _ h, hL => by
    obtain ⟨h2, h3, _⟩ := (h.take hl fun a ha => hL a (List.mem_cons_of_mem _ (List.mem_cons_of_mem _ ha))).elem
    exact .set (hc.take (hL _ (List.mem_cons_self ..))) hh (h1.take (hL _ (List.mem_cons_of_mem _ (List.mem_cons_self ..)))) (hx.later hl) h2 h3
theorem Spec.IsSources.take {N : Idents} {p : Int} {es : List Expr} {L' L : List Int} (hl : Later W s (W.take L') s) :
    IsSources s W mes N p es L → (∀ a ∈ L, a ∈ L') → IsSeq s (W.take L') mes N p es
  | .nil, _ => .nil
  | .cons hp he hc h, hL =>
    .cons (hp.take (hL _ (List.mem_cons_self ..))) (he.take hl fun a ha => hL a (List.mem_cons_of_mem _ (List.mem_append_left _ ha))) hc
      (h.take hl fun a ha => hL a (List.mem_cons_of_mem _ (List.mem_append_right _ ha)))
end

end Mes
