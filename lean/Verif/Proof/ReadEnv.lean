import Verif.Proof.Sexp
import Verif.Proof.Printer
/-
Reading one datum or all of them from a port, and comparing data.
-/
namespace Mes
open Res Spec

variable {E : Env} {s s' : St} {w w' : In} {H H' : List (List Byte × Int)} {bs rest g t r : List Byte}
  {clear : Bool} {fuel : Nat} {P : Int → Prop} {d : Datum} {last : Bool}

theorem readEnv_fresh (hm : 45 ≤ E.mx) (hg : Written E.mx .gap g) (ht : Written E.mx (.datum d last) t) (he : last = true → Ends rest)
    (h : Reading E s w H (g ++ t ++ rest) clear) (hr : RoomFor E s (20 * (g.length + t.length)) (4 * (g.length + t.length) + 1))
    (hf : 2 * (g.length + t.length) + 2 ≤ fuel) (hk : H.length + (g.length + t.length) < E.k) :
    ∃ x s' w' H', readEnv E.k fuel s w = ok (x, s', w') ∧ (Den s' H' E.touch x d ∧ Fresh s' s.free s'.free x d) ∧
      Run E s H s' w' H' rest false (20 * (g.length + t.length)) (4 * (g.length + t.length)) (g.length + t.length) := by
  have hp := ht.pos
  rw [List.append_assoc] at h
  obtain ⟨s1, w1, r1, r2, r3⟩ := h.take hr (by omega)
  obtain ⟨s2, w2, H2, f2, k1, k2, k3⟩ := hg.ok hm r2.rd (r3.room hr (by omega) (by omega)) (fuel := fuel) (by omega) (by omega)
  have R2 := r3.trans k3
  have hl := R2.length
  obtain ⟨x, s3, w3, H3, A3, m1, m2, m3, m4, m5⟩ := ht.ok hm he k3.rd (R2.room hr (by omega) (by omega)) (fuel := f2) (by omega) (by omega)
  refine ⟨x, s3, w3, H3, ?_, ⟨m4.1, m4.2.mono R2.frame.le (Int.le_refl _)⟩, (R2.trans m3).weaken (by omega) (by omega) (by omega)⟩
  simp only [readEnv, r1, ok_bind, k1, m1]

theorem readEnv_ok (hm : 45 ≤ E.mx) (hg : Written E.mx .gap g) (ht : Written E.mx (.datum d last) t) (he : last = true → Ends rest)
    (h : Reading E s w H (g ++ t ++ rest) clear) (hr : RoomFor E s (20 * (g.length + t.length)) (4 * (g.length + t.length) + 1))
    (hf : 2 * (g.length + t.length) + 2 ≤ fuel) (hk : H.length + (g.length + t.length) < E.k) :
    ∃ x s' w' H', readEnv E.k fuel s w = ok (x, s', w') ∧ Den s' H' E.touch x d ∧
      Run E s H s' w' H' rest false (20 * (g.length + t.length)) (4 * (g.length + t.length)) (g.length + t.length) :=
  let ⟨x, s', w', H', h1, h2, h3⟩ := readEnv_fresh hm hg ht he h hr hf hk
  ⟨x, s', w', H', h1, h2.1, h3⟩

theorem readEnv_end (hm : 45 ≤ E.mx) (hg : Written E.mx .gap g)
    (h : Reading E s w H g clear) (hr : RoomFor E s (20 * g.length) (4 * g.length + 1))
    (hf : 2 * g.length + 2 ≤ fuel) (hk : H.length + g.length < E.k) :
    ∃ s' w' H', readEnv E.k fuel s w = ok (c_nil, s', w') ∧
      Run E s H s' w' H' [] false (20 * g.length) (4 * g.length + 1) g.length := by
  obtain ⟨s1, w1, r1, r2, r3⟩ := h.take hr (by omega)
  obtain ⟨s2, w2, H2, f2, k1, k2, k3⟩ := hg.ok hm (rest := []) (by simpa using r2.rd) (r3.room hr (by omega) (by omega)) (fuel := fuel) (by omega) (by omega)
  obtain ⟨f2, rfl⟩ : ∃ f, f2 = f + 1 := ⟨f2 - 1, by omega⟩
  refine ⟨s2, w2, H2, ?_, (r3.trans k3).weaken (by omega) (by omega) (by omega)⟩
  rw [List.append_nil] at k1
  simp only [readEnv, r1, ok_bind, k1]
  rfl

theorem Spec.Printable.keep (h : Printable s) (hf : Frame P s s')
    (hp : ∀ a, s.Valid a → P a → (s.cell a).tag = .ref ∨ (s.cell a).tag = .port) (hb : c_symbol_max ≤ s.free) : Printable s' := by
  simp only [c_symbol_max] at hb
  have hfix : ∀ a, c_nil ≤ a → a < c_symbol_max → ¬ P a := fun a h1 h2 h3 => by
    have := h.fixed a h1 h2
    have h4 := hp a ⟨by simp only [c_nil] at h1; omega, by simp only [c_symbol_max] at h2; omega⟩ h3
    split at this <;> rw [this] at h4 <;> simp at h4
  refine ⟨fun a h1 h2 => ?_, ?_, ?_, ?_, ?_⟩
  · rw [hf.same a (by simp only [c_symbol_max] at h2; omega) (hfix a h1 h2)]
    exact h.fixed a h1 h2
  · exact h.nil.keep hf (hfix _ (by decide) (by decide)) hp
  · exact h.tru.keep hf (hfix _ (by decide) (by decide)) hp
  · exact h.fls.keep hf (hfix _ (by decide) (by decide)) hp
  · exact h.circ.keep hf (hfix _ (by decide) (by decide)) hp

theorem Run.shown {A B l : Nat} {clear' : Bool} (h : Run E s H s' w' H' rest clear A B l) (h0 : Reading E s w H bs clear') (hs : Printable s) : Printable s' :=
  hs.keep h.frame (fun _ hv ha => h0.touch_tag hv ha) h0.names.base

/-- Only the empty list is read as the address of the empty list. -/
theorem den_nil {m : Nat} (hs : Printable s) (ht : Written m (.datum d last) t) (h : Den s H P c_nil d) : d = .nil := by
  rcases h.special (by rw [hs.fixed c_nil (by decide) (by decide)]; rfl) hs.nil with h | h | h | h
  · exact h.2
  · exact absurd h.1 (by decide)
  · exact absurd h.1 (by decide)
  · subst h
    cases ht with
    | sym hi => exact absurd (hi.chars 40 (by decide)).1 (by decide)
    | list h => rcases h.tail_kind with h | ⟨_, _, h⟩ <;> cases h

theorem readAll_fresh {ds : List Datum} (hm : 45 ≤ E.mx) (hp : Program E.mx ds t) : (∀ d ∈ ds, d ≠ .nil) →
    ∀ {s : St} {w : In} {H : List (List Byte × Int)} {clear : Bool} {more : Nat},
    Printable s → Reading E s w H t clear → RoomFor E s (21 * t.length) (4 * t.length + 1) → 2 * t.length + 2 ≤ fuel →
    H.length + t.length < E.k → ds.length < more →
    ∃ x s' w' H', readAll E.k fuel more s w = ok (x, s', w') ∧ (Den s' H' E.touch x (.list ds) ∧ Fresh s' s.free s'.free x (.list ds)) ∧
      Run E s H s' w' H' [] false (21 * t.length) (4 * t.length + 1) t.length := by
  induction hp with
  | done hg =>
    intro _ s w H clear more hs h hr hf hk hmore
    obtain ⟨more, rfl⟩ : ∃ m, more = m + 1 := ⟨more - 1, by omega⟩
    obtain ⟨s1, w1, H1, k1, k2⟩ := readEnv_end hm hg h (hr.mono (by omega) (by omega)) (fuel := fuel) (by omega) hk
    refine ⟨c_nil, s1, w1, H1, ?_, ⟨.nil, .atom k2.frame.le (by simp [Datum.list])⟩, k2.weaken (by omega) (by omega) (by omega)⟩
    simp only [readAll, k1, ok_bind, if_true]
  | @more g t r d ds last hg ht he hp ih =>
    intro hn s w H clear more hs h hr hf hk hmore
    simp only [List.length_append, List.length_cons] at hr hf hk hmore ⊢
    have hpos := ht.pos
    obtain ⟨more, rfl⟩ : ∃ m, more = m + 1 := ⟨more - 1, by omega⟩
    obtain ⟨x, s1, w1, H1, k1, k2, k3⟩ := readEnv_fresh hm hg ht he h (hr.mono (by omega) (by omega)) (fuel := fuel) (by omega) (by omega)
    have hl := k3.length
    have hs1 := k3.shown h hs
    obtain ⟨l, s2, w2, H2, m1, m2, m3⟩ := ih (fun d hd => hn d (List.mem_cons_of_mem _ hd)) hs1 k3.rd
      (k3.room hr (by omega) (by omega)) (by omega) (by omega) (more := more) (by omega)
    have R := k3.trans m3
    have hr2 := R.room hr (A₂ := 1) (B₂ := 0) (by omega) (by omega)
    have x1 := push_ext s2 { tag := .pair, car := x, cdr := l }
    have R1 := m3.rd.alloc (A := 1) x1 (by simp)
    have hx : x ≠ c_nil := by
      rintro rfl
      exact hn d List.mem_cons_self (den_nil hs1 ht k2.1)
    refine ⟨s2.free, _, w2, H2, ?_, ?_, (R.trans R1).weaken (by omega) (by omega) (by omega)⟩
    · simp only [readAll, k1, ok_bind, if_neg hx, m1, cons_ok (hr2.cells (k := 1) (by omega))]
    · have hc : (s2.push { tag := .pair, car := x, cdr := l }).cell s2.free = { tag := .pair, car := x, cdr := l } := by simp
      rw [Datum.list]
      refine ⟨.pair ((hr2.cells (k := 1) (by omega)).free_valid _) (by rw [hc]) ?_ ?_, .pair (m := s1.free) (m' := s2.free) ?_ ?_ (Int.le_refl _) (by simp; omega)⟩
      · rw [hc]; exact R1.den m3.rd (m3.den k3.rd k2.1)
      · rw [hc]; exact R1.den m3.rd m2.1
      · rw [hc]; exact k2.2.keep (m3.trans R1).frame (fun a ha => h.touch_lt ha) (Int.le_refl _)
      · rw [hc]; exact m2.2.keep R1.frame (fun a ha => k3.rd.touch_lt ha) (Int.le_refl _)

theorem readAll_ok {ds : List Datum} (hm : 45 ≤ E.mx) (hp : Program E.mx ds t) (hn : ∀ d ∈ ds, d ≠ .nil)
    {s : St} {w : In} {H : List (List Byte × Int)} {clear : Bool} {more : Nat} (hs : Printable s) (h : Reading E s w H t clear)
    (hr : RoomFor E s (21 * t.length) (4 * t.length + 1)) (hf : 2 * t.length + 2 ≤ fuel)
    (hk : H.length + t.length < E.k) (hd : ds.length < more) :
    ∃ x s' w' H', readAll E.k fuel more s w = ok (x, s', w') ∧ Den s' H' E.touch x (.list ds) ∧
      Run E s H s' w' H' [] false (21 * t.length) (4 * t.length + 1) t.length :=
  let ⟨x, s', w', H', h1, h2, h3⟩ := readAll_fresh hm hp hn hs h hr hf hk hd
  ⟨x, s', w', H', h1, h2.1, h3⟩

/-! ### Comparing -/

mutual
/-- The datum as a tree, where the symbols are objects. -/
def Spec.Datum.tree (H : List (List Byte × Int)) : Datum → Tree
  | .nil => .atom (.obj c_nil)
  | .bool b => .atom (.obj (if b then c_t else c_f))
  | .num n => .atom (.num n)
  | .chr c => .atom (.chr c)
  | .str bs => .str bs
  | .sym name => .atom (.obj ((lookup name H).getD 0))
  | .kw name => .atom (.kw name)
  | .pair a d => .pair (a.tree H) (d.tree H)
  | .vec es => .vec (trees H es)
/-- The same for a list. -/
def trees (H : List (List Byte × Int)) : List Datum → List Tree
  | [] => []
  | e :: es => e.tree H :: trees H es
end

theorem trees_length : ∀ es : List Datum, (trees H es).length = es.length
  | [] => rfl
  | _ :: es => by simp [trees, trees_length es]

theorem trees_get : ∀ (es : List Datum) (i : Nat) (hi : i < (trees H es).length) (hi' : i < es.length), (trees H es)[i] = es[i].tree H
  | e :: es, 0, _, _ => rfl
  | e :: es, i + 1, hi, hi' => by simp only [trees, List.getElem_cons_succ]; exact trees_get es i _ _

theorem Spec.Den.rep (hs : Printable s) {p : Int} (h : Den s H P p d) : Rep s p (d.tree H) := by
  have obj : ∀ a, s.Valid a → (s.cell a).tag = .special ∨ (s.cell a).tag = .symbol → Rep s a (.atom (.obj a)) := fun a hv ht =>
    .atom (.obj hv (by rcases ht with h | h <;> simp [h]) (by rcases ht with h | h <;> simp [h]) (by rcases ht with h | h <;> simp [h]))
      (by rcases ht with h | h <;> simp [h]) (by rcases ht with h | h <;> simp [h]) (by rcases ht with h | h <;> simp [h])
      (by rcases ht with h | h <;> simp [h])
  induction h with
  | nil => rw [Datum.tree]; exact obj _ hs.nil.valid (.inl (by rw [hs.fixed _ (by decide) (by decide)]; rfl))
  | bool b =>
    rw [Datum.tree]
    cases b
    · exact obj _ hs.fls.valid (.inl (by rw [hs.fixed _ (by decide) (by decide)]; rfl))
    · exact obj _ hs.tru.valid (.inl (by rw [hs.fixed _ (by decide) (by decide)]; rfl))
  | num h => rw [Datum.tree]; exact .atom (.num h) (by simp [h.tag]) (by simp [h.tag]) (by simp [h.tag]) (by simp [h.tag])
  | chr h => rw [Datum.tree]; exact .atom (.chr h) (by simp [h.tag]) (by simp [h.tag]) (by simp [h.tag]) (by simp [h.tag])
  | str h => rw [Datum.tree]; exact .str h
  | sym h ht hl hne => rw [Datum.tree, hl]; exact obj _ h.valid ht.symm
  | kw h ht => rw [Datum.tree]; exact .atom (.kw h ht) (by simp [ht]) (by simp [ht]) (by simp [ht]) (by simp [ht])
  | pair hv ht _ _ ih1 ih2 => rw [Datum.tree]; exact .pair hv ht ih1 ih2
  | vec hv ht hl he h ih =>
    rw [Datum.tree]
    refine .vec hv ht (by rw [trees_length]; exact hl) (fun i hi => (he i (by rwa [trees_length] at hi)).1) (fun i hi => ?_)
    have hi' := hi
    rw [trees_length] at hi'
    rw [trees_get _ i hi hi']
    exact ih i hi'

end Mes
