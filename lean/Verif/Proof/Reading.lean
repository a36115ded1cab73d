import Verif.Proof.Port
import Verif.Proof.Symbol
import Verif.Proof.Array
import Verif.Proof.Tree
import Verif.Spec.Reading
import Verif.Model.Reader
/-
What is kept while the reader runs.
-/
namespace Mes
open Res Spec

/-- The names known before keep their symbols. -/
def Grown (H H' : List (List Byte × Int)) : Prop :=
  ∀ name a, name ≠ [35, 102] → lookup name H = some a → lookup name H' = some a

/-- The names known now were known before, or have new symbols. -/
def Newer (s : St) (H : List (List Byte × Int)) (s' : St) (H' : List (List Byte × Int)) : Prop :=
  ∀ name x, lookup name H' = some x → lookup name H = some x ∨ s.free ≤ x ∧ (s'.cell x).tag = .symbol

/-- From the memory `s` and the names `H` a part of the reader came to `s'` and `H'`, using `A + B * u` cells. -/
structure Run (E : Env) (s : St) (H : List (List Byte × Int)) (s' : St) (w' : In) (H' : List (List Byte × Int)) (bs : List Byte)
    (clear : Bool) (A B l : Nat) : Prop where
  rd : Reading E s' w' H' bs clear
  frame : Frame E.touch s s'
  free : s'.free ≤ s.free + (A + B * E.u)
  grown : Grown H H'
  length : H'.length ≤ H.length + l
  newer : Newer s H s' H'

variable {E : Env} {s s' s'' : St} {w w' w'' : In} {H H' H'' : List (List Byte × Int)} {bs bs' : List Byte} {c : Byte}
  {clear clear' : Bool} {A B A' B' l l' : Nat} {P : Int → Prop}

theorem Spec.Env.u_pos (E : Env) : 5 ≤ E.u := by unfold Env.u stringCells; omega

theorem Grown.refl (H : List (List Byte × Int)) : Grown H H := fun _ _ _ h => h
theorem Newer.refl (s s' : St) (H : List (List Byte × Int)) : Newer s H s' H := fun _ _ h => .inl h
theorem Grown.trans (h : Grown H H') (h' : Grown H' H'') : Grown H H'' := fun n a hn hl => h' n a hn (h n a hn hl)

theorem mul_u_mono (E : Env) {B B' : Nat} (h : B ≤ B') : (B : Int) * E.u ≤ B' * E.u := by
  have := E.u_pos
  exact Int.mul_le_mul_of_nonneg_right (by omega) (by omega)

theorem Spec.RoomFor.mono (h : RoomFor E s A B) (hA : A' ≤ A) (hB : B' ≤ B) : RoomFor E s A' B' :=
  Room.mono h (by have := mul_u_mono E hB; omega)

theorem Spec.RoomFor.cells (h : RoomFor E s A B) {k : Int} (hk : k ≤ A) : Room s k :=
  Room.mono h (by have := mul_u_mono E (Nat.zero_le B); simp at this; omega)

theorem Spec.RoomFor.char (h : RoomFor E s A B) (hB : 1 ≤ B) : Room s (stringCells E.m) :=
  Room.mono h (by have := mul_u_mono E hB; simp [Env.u] at this ⊢; omega)

theorem Run.room (h : Run E s H s' w' H' bs clear A B l) {A₂ B₂ : Nat} (hr : RoomFor E s A' B') (hA : A + A₂ ≤ A') (hB : B + B₂ ≤ B') :
    RoomFor E s' A₂ B₂ := by
  refine Room.step hr h.frame ?_
  have h1 := h.free
  have h2 := mul_u_mono E hB
  rw [Int.natCast_add, Int.add_mul] at h2
  omega

theorem Spec.Reading.touch_tag (h : Reading E s w H bs clear) {a : Int} (hv : s.Valid a) (ha : E.touch a) :
    (s.cell a).tag = .ref ∨ (s.cell a).tag = .port := by
  rcases ha with ⟨rfl, -⟩ | ⟨h1, h2⟩
  · exact .inr (h.input.portTag hv)
  · left
    have := h.sym.table.btag (a - E.b).toNat (by omega)
    rw [h.buckets] at this
    rwa [show E.b + ((a - E.b).toNat : Int) = a by omega] at this

theorem Run.trans {A₂ B₂ l₂ : Nat} (h : Run E s H s' w' H' bs clear A B l) (h' : Run E s' H' s'' w'' H'' bs' clear' A₂ B₂ l₂) :
    Run E s H s'' w'' H'' bs' clear' (A + A₂) (B + B₂) (l + l₂) :=
  ⟨h'.rd, h.frame.trans h'.frame, by
    have h1 := h.free; have h2 := h'.free
    rw [Int.natCast_add, Int.natCast_add, Int.add_mul]; omega, h.grown.trans h'.grown,
    by have := h.length; have := h'.length; omega, fun name x hx => by
      rcases h'.newer name x hx with hx | ⟨h1, h2⟩
      · rcases h.newer name x hx with hx' | ⟨h1, h2⟩
        · exact .inl hx'
        · have hv := (h.rd.sym.named _ (lookup_mem hx)).1.valid
          refine .inr ⟨h1, ?_⟩
          rw [h'.frame.same x hv.2 fun ht => ?_]
          · exact h2
          · have := h.rd.touch_tag hv ht
            rw [h2] at this
            simp at this
      · exact .inr ⟨Int.le_trans h.frame.le h1, h2⟩⟩

theorem Run.weaken (h : Run E s H s' w' H' bs clear A B l) (hA : A ≤ A') (hB : B ≤ B') (hl : l ≤ l') :
    Run E s H s' w' H' bs clear A' B' l' :=
  ⟨h.rd, h.frame, by have := h.free; have := mul_u_mono E hB; omega, h.grown, by have := h.length; omega, h.newer⟩

theorem Spec.Reading.run (h : Reading E s w H bs clear) : Run E s H s w H bs clear 0 0 0 :=
  ⟨h, Frame.refl _ _, by simp, Grown.refl H, by omega, Newer.refl _ _ H⟩

theorem Spec.Reading.weaken (h : Reading E s w H bs clear) : Reading E s w H bs false :=
  ⟨h.sym, h.buckets, h.input.weaken, h.names, h.mx⟩

theorem Run.unclear (h : Run E s H s' w' H' bs clear A B l) : Run E s H s' w' H' bs false A B l :=
  ⟨h.rd.weaken, h.frame, h.free, h.grown, h.length, h.newer⟩

theorem Spec.Reading.touch_lt (h : Reading E s w H bs clear) {a : Int} (ha : E.touch a) : a < s.free := by
  rcases ha with ⟨rfl, -⟩ | ⟨h1, h2⟩
  · cases h.input with
    | file hp _ => have := h.names.base; simp only [c_symbol_max] at this; omega
    | string h => exact (portLoop_ok h.port).2.1.2
  · have := h.sym.table.bvalid (a - E.b).toNat (by omega)
    rw [h.buckets, show E.b + ((a - E.b).toNat : Int) = a by omega] at this
    exact this.2

/-! ### Data in memory when other cells change -/

theorem Spec.HasText.keep {x : Int} (h : HasText s x bs) (hf : Frame P s s') (hx : ¬ P x)
    (hp : ∀ a, s.Valid a → P a → (s.cell a).tag = .ref ∨ (s.cell a).tag = .port) : HasText s' x bs :=
  h.frame hf hx (fun h' => by have := hp _ h.bvalid h'; rw [h.btag] at this; simp at this)

theorem Spec.Den.keep {x : Int} {d : Datum} (h : Den s H P x d) (hf : Frame P s s')
    (hp : ∀ a, s.Valid a → P a → (s.cell a).tag = .ref ∨ (s.cell a).tag = .port) (hg : Grown H H') : Den s' H' P x d := by
  have key : ∀ a, s.Valid a → (s.cell a).tag ≠ .ref → (s.cell a).tag ≠ .port → ¬ P a := fun a hv h1 h2 h3 => by
    rcases hp a hv h3 with h | h
    · exact h1 h
    · exact h2 h
  induction h with
  | nil => exact .nil
  | bool b => exact .bool b
  | num h => exact .num (h.frame hf (key _ h.valid (by simp [h.tag]) (by simp [h.tag])))
  | chr h hr => exact .chr (h.frame hf (key _ h.valid (by simp [h.tag]) (by simp [h.tag]))) hr
  | str h =>
    have n := key _ h.valid (by simp [h.tag]) (by simp [h.tag])
    exact .str ⟨h.toHasText.keep hf n hp, by rw [hf.same _ h.valid.2 n]; exact h.tag⟩
  | sym h ht hl hne =>
    have n := key _ h.valid (by rcases ht with h | h <;> simp [h]) (by rcases ht with h | h <;> simp [h])
    exact .sym (h.keep hf n hp) (by rw [hf.same _ h.valid.2 n]; exact ht) (hg _ _ hne hl) hne
  | kw h ht =>
    have n := key _ h.valid (by simp [ht]) (by simp [ht])
    exact .kw (h.keep hf n hp) (by rw [hf.same _ h.valid.2 n]; exact ht)
  | pair hv ht _ _ ih1 ih2 =>
    have e := hf.same _ hv.2 (key _ hv (by simp [ht]) (by simp [ht]))
    exact .pair (hf.valid hv) (by rw [e]; exact ht) (by rw [e]; exact ih1) (by rw [e]; exact ih2)
  | @vec x es hv ht hl he _ ih =>
    have e := hf.same _ hv.2 (key _ hv (by simp [ht]) (by simp [ht]))
    refine .vec (hf.valid hv) (by rw [e]; exact ht) (by rw [e]; exact hl)
      (fun i hi => by rw [e]; exact ⟨hf.valid (he i hi).1, (he i hi).2⟩) (fun i hi => ?_)
    have := ih i hi
    rw [e]
    unfold target at this ⊢
    rwa [hf.same _ (he i hi).1.2 (he i hi).2]

theorem Run.den (h : Run E s H s' w' H' bs clear A B l) (h0 : Reading E s w H bs' clear') {x : Int} {d : Datum}
    (hd : Den s H E.touch x d) : Den s' H' E.touch x d :=
  hd.keep h.frame (fun _ hv ha => h0.touch_tag hv ha) h.grown

/-! ### The invariant when cells change -/

theorem Spec.Names.keep (h : Names s H) (hf : Frame P s s')
    (hp : ∀ a, s.Valid a → P a → (s.cell a).tag = .ref ∨ (s.cell a).tag = .port) (hg : Grown H H') : Names s' H' := by
  have hb := h.base
  simp only [c_symbol_max] at hb
  have hfix : ∀ a, c_nil ≤ a → a < c_symbol_max → ¬ P a := fun a h1 h2 h3 => by
    have := h.fixed a h1 h2
    have h4 := hp a ⟨by simp only [c_nil] at h1; omega, by simp only [c_symbol_max] at h2; omega⟩ h3
    split at this <;> rw [this] at h4 <;> simp at h4
  refine ⟨fun a h1 h2 => ?_, Int.le_trans h.base hf.le, ?_, ?_, fun q hq => hg _ _ ?_ (h.quotes q hq)⟩
  · rw [hf.same a (by simp only [c_symbol_max] at h2; omega) (hfix a h1 h2)]
    exact h.fixed a h1 h2
  · exact h.fls.keep hf (hfix _ (by decide) (by decide)) hp
  · exact h.dot.keep hf (hfix _ (by decide) (by decide)) hp
  · revert q; decide

theorem Spec.Reading.ext (h : Reading E s w H bs clear) (hx : Ext s s') : Reading E s' w H bs clear := by
  refine ⟨h.sym.ext hx, ?_, h.input.ext hx, h.names.keep hx (fun _ _ h => h.elim) (Grown.refl H), by
    rw [hx.maxString]; exact h.mx⟩
  have e1 := hx.same _ h.sym.table.rvalid.2 id
  have e2 : bucketsOf s' s'.symbols = bucketsOf s s.symbols := by
    rw [hx.symbols]; unfold bucketsOf; rw [hx.same _ h.sym.table.valid.2 id, e1]
  rw [e2, hx.same _ h.sym.table.vvalid.2 id]
  exact h.buckets

theorem Spec.Reading.alloc (h : Reading E s w H bs clear) (hx : Ext s s') (hl : s'.free ≤ s.free + A) :
    Run E s H s' w H bs clear A 0 0 :=
  ⟨h.ext hx, hx.frame, by simp; exact hl, Grown.refl H, by omega, Newer.refl _ _ H⟩

/-- Only the string port changed. -/
theorem Spec.Reading.port (h : Reading E s w H bs clear) (hf : Frame (· = E.p) s s') (hi : Input E.m E.k E.p s' w' bs' clear') :
    Reading E s' w' H bs' clear' := by
  have hp : ∀ a, s.Valid a → a = E.p → (s.cell a).tag = .ref ∨ (s.cell a).tag = .port := fun a hv ha => by
    subst ha; exact .inr (h.input.portTag hv)
  have key : ∀ a, s.Valid a → (s.cell a).tag ≠ .port → ¬ a = E.p := fun a hv ht e => by
    subst e; exact ht (h.input.portTag hv)
  have hpart : ∀ a, Part s s.symbols E.n a → ¬ a = E.p := fun a ha => by
    obtain ⟨hv, ht⟩ := h.sym.table.part_tag stringKeys_ok ha
    refine key a hv (fun e => ?_)
    rw [e] at ht
    rcases ht with h | h | h | h | h | h | ⟨k, h⟩
    iterate 6 cases h
    have := IsString.tag h
    rw [e] at this; cases this
  refine ⟨h.sym.frame hf hpart ?_ (fun e he => ?_), ?_, hi, h.names.keep hf hp (Grown.refl H), by
    rw [hf.maxString]; exact h.mx⟩
  · have ht := h.sym.table.ftag; have hv := h.sym.table.fvalid
    rw [hf.same _ hv.1.2 (key _ hv.1 (by simp [ht.1])), hf.same _ hv.2.2 (key _ hv.2 (by simp [ht.2]))]
    exact ht
  · obtain ⟨h1, h2⟩ := h.sym.named e he
    exact ⟨key _ h1.valid (by rcases h2 with h | h <;> simp [h]), key _ h1.bvalid (by simp [h1.btag])⟩
  · have e1 := hf.same _ h.sym.table.rvalid.2 (hpart _ (.inr (.inr (.inl rfl))))
    have e2 : bucketsOf s' s'.symbols = bucketsOf s s.symbols := by
      rw [hf.symbols]; unfold bucketsOf; rw [hf.same _ h.sym.table.valid.2 (hpart _ (.inl rfl)), e1]
    rw [e2, hf.same _ h.sym.table.vvalid.2 (hpart _ (.inr (.inr (.inr (.inl rfl)))))]
    exact h.buckets

/-! ### Single characters -/

theorem Spec.Reading.read (h : Reading E s w H (c :: bs) clear) (hr : RoomFor E s A B) (hB : 1 ≤ B) :
    ∃ s' w', readchar s w E.k = ok (code c, s', w') ∧ Run E s H s' w' H bs true 0 1 0 := by
  obtain ⟨s', w', h1, h2, h3, h4⟩ := readchar_ok h.input (hr.char hB)
  exact ⟨s', w', h1, h.port (h3.mono fun _ _ ha => ha.1) h2, h3.mono (fun a _ ha => .inl ha), by simpa [Env.u] using h4, Grown.refl H, by omega, Newer.refl _ _ H⟩

theorem Spec.Reading.peek (h : Reading E s w H (c :: bs) clear) :
    ∃ w', peekchar s w E.k = ok (code c, s, w') ∧ Reading E s w' H (c :: bs) false := by
  obtain ⟨w', h1, h2⟩ := peekchar_ok h.input
  exact ⟨w', h1, h.sym, h.buckets, h2, h.names, h.mx⟩

/-- The next character, or the end of the text. -/
def next : List Byte → Int
  | [] => eof
  | c :: _ => code c

theorem next_cons (c : Byte) (bs : List Byte) : next (c :: bs) = code c := rfl

theorem Spec.Reading.peek' (h : Reading E s w H bs clear) :
    ∃ w', peekchar s w E.k = ok (next bs, s, w') ∧ Reading E s w' H bs false := by
  cases bs with
  | nil => exact ⟨w, peekchar_eof h.input, h.weaken⟩
  | cons c bs => exact h.peek

/-- Reading the next character, or the end of the text. -/
theorem Spec.Reading.read' (h : Reading E s w H bs clear) (hr : RoomFor E s A B) (hB : 1 ≤ B) :
    ∃ s' w', readchar s w E.k = ok (next bs, s', w') ∧ Run E s H s' w' H (bs.drop 1) (decide (bs ≠ []) || clear) 0 1 0 := by
  cases bs with
  | nil => exact ⟨s, w, readchar_eof h.input, h.run.weaken (Nat.le_refl _) (by omega) (Nat.le_refl _)⟩
  | cons c bs => simpa [next] using h.read hr hB

/-- Reading a character and pushing it back. -/
theorem Spec.Reading.unread (h : Reading E s w H bs true) (hr : RoomFor E s A B) (hB : 1 ≤ B)
    (hc : E.p ≠ 0 → c.toNat < 128 ∧ bs.length < E.m) :
    ∃ s' w', unreadchar s w E.k (code c) = ok (code c, s', w') ∧ Run E s H s' w' H (c :: bs) false 0 1 0 := by
  obtain ⟨s', w', h1, h2, h3, h4⟩ := unreadchar_ok (b := c) h.input (hr.char hB) hc
  exact ⟨s', w', h1, h.port (h3.mono fun _ _ ha => ha.1) h2, h3.mono (fun a _ ha => .inl ha), by simpa [Env.u] using h4, Grown.refl H, by omega, Newer.refl _ _ H⟩

/-! ### Interning -/

theorem lookup_cons_ne {α : Type} [DecidableEq α] {k : α} {e : α × Int} {H : List (α × Int)} (h : e.1 ≠ k) :
    lookup k (e :: H) = lookup k H := by simp [lookup, h]

theorem Spec.Reading.intern (h : Reading E s w H bs clear) {name : List Byte} (h0 : 0 ≤ hashSum name)
    (hm : name.length ≤ s.maxString) (hk : H.length < E.k) (hr : RoomFor E s A B) (hA : name.length / 8 + 11 ≤ A) :
    ∃ x s' H', cstringToSymbol s E.k name = ok (x, s') ∧ Run E s H s' w H' bs clear (name.length / 8 + 11) 0 1 ∧
      HasText s' x name ∧ ((s'.cell x).tag = .symbol ∨ (s'.cell x).tag = .special) ∧ lookup name H' = some x := by
  obtain ⟨s1, m1, m2, m3, m4⟩ := makeString_ok (s := s) (bs := name) hm (hr.cells (by unfold stringCells; omega))
  have hsc : stringCells name.length = ((name.length / 8 + 5 : Nat) : Int) := by unfold stringCells; omega
  rw [hsc] at m4
  have R1 := h.alloc (A := name.length / 8 + 5) m3 m4
  obtain ⟨x, s2, k1, k2, k3⟩ := stringToSymbol_ok R1.rd.sym m2 h0 hk ((R1.room hr (A₂ := 6) (B₂ := 0) (by omega) (by omega)).cells (by omega))
  have hrun : cstringToSymbol s E.k name = ok (x, s2) := by simp only [cstringToSymbol, m1, ok_bind, k1]
  rcases k3 with ⟨l1, l2, l3, l4⟩ | ⟨l1, l2, l3, l4, l5⟩
  · have R2 := R1.rd.alloc (A := 6) l4 k2
    obtain ⟨n1, n2⟩ := l3.named _ (lookup_mem l1)
    exact ⟨x, s2, H, hrun, (R1.trans R2).weaken (by omega) (by omega) (by omega), n1, n2, l1⟩
  · have hslot := slot_lt (n := E.n) name R1.rd.sym.table.pos
    have hbc : bucketCell s1 s1.symbols E.n name = E.b + slot E.n name := by unfold bucketCell; rw [R1.rd.buckets]
    have hb : ∀ a, a = bucketCell s1 s1.symbols E.n name → E.touch a := fun a e => by
      rw [e, hbc]; exact .inr ⟨by omega, by omega⟩
    have href : ∀ a, s1.Valid a → a = bucketCell s1 s1.symbols E.n name → (s1.cell a).tag = .ref := fun a _ e => by
      rw [e]; exact R1.rd.sym.table.btag _ hslot
    have hg : Grown H ((name, x) :: H) := fun nm a hn hl => by
      by_cases e : name = nm
      · subst e
        rw [hl] at l1
        simp only [Option.getD_some] at l1
        subst l1
        have := (R1.rd.sym.named _ (lookup_mem hl)).1
        exact absurd (this.inj R1.rd.names.fls) hn
      · rwa [lookup_cons_ne e]
    have hpart : ∀ {a}, s1.Valid a → (s1.cell a).tag ≠ .ref → ¬ a = bucketCell s1 s1.symbols E.n name := fun hv ht e =>
      ht (href _ hv e)
    have hbuck : (s2.cell (bucketsOf s2 s2.symbols)).cdr = E.b := by
      have T := R1.rd.sym.table
      have e0 := l5.same _ T.valid.2 (hpart T.valid (by simp [T.tag]))
      have e1 := l5.same _ T.rvalid.2 (fun e => T.apart _ hslot (by rw [e]; rfl))
      have e2 : bucketsOf s2 s2.symbols = bucketsOf s1 s1.symbols := by
        rw [l5.symbols]; unfold bucketsOf; rw [e0, e1]
      rw [e2, l5.same _ T.vvalid.2 (hpart T.vvalid (by simp [T.vtag]))]
      exact R1.rd.buckets
    have R2 : Run E s1 H s2 w ((name, x) :: H) bs clear 6 0 1 :=
      ⟨⟨l4, hbuck, R1.rd.input.frame l5 href, R1.rd.names.keep l5 (fun a hv ha => .inl (href a hv ha)) hg, by
          rw [l5.maxString]; exact R1.rd.mx⟩,
        l5.mono (fun a _ ha => hb a ha), by simpa using k2, hg, by simp, fun nm a hl => by
          by_cases e : name = nm
          · subst e
            simp only [lookup, if_true, Option.some.injEq] at hl
            subst hl
            exact .inr ⟨l2, l3⟩
          · rw [lookup_cons_ne e] at hl
            exact .inl hl⟩
    obtain ⟨n1, n2⟩ := l4.named _ (List.mem_cons_self ..)
    exact ⟨x, s2, _, hrun, (R1.trans R2).weaken (by omega) (by omega) (by omega), n1, n2, by simp [lookup]⟩

end Mes
