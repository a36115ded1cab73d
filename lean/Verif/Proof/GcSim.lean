import Verif.Proof.GcAll
import Verif.Proof.Array
import Verif.Proof.Alloc
/-
Programs cannot tell isomorphic memories apart.
-/
namespace Mes.Gc
open Res Spec

/-- A set of objects that contains the roots and everything its members refer to. -/
structure Closed (P : Int → Prop) (s : St) : Prop where
  root : ∀ a, Root s a → P a
  car : ∀ a, P a → refCar (s.cell a).tag → P (s.cell a).car
  cdr : ∀ a, P a → refCdr (s.cell a).tag → P (s.cell a).cdr
  element : ∀ a, P a → isBlock (s.cell a).tag → ∀ i : Nat, i < (s.cell a).car →
    (s.cell ((s.cell a).cdr + i)).tag = .ref → P (s.cell ((s.cell a).cdr + i)).car

theorem Closed.reach {P : Int → Prop} {s : St} (h : Closed P s) {a : Int} (ha : Reach s a) : P a := by
  induction ha with
  | root hr => exact h.root _ hr
  | car _ ht ih => exact h.car _ ih ht
  | cdr _ ht ih => exact h.cdr _ ih ht
  | element _ ht hi he ih => exact h.element _ ih ht _ hi he

theorem closed_reach (s : St) : Closed (Reach s) s :=
  ⟨fun _ h => .root h, fun _ h ht => .car h ht, fun _ h ht => .cdr h ht, fun _ h ht _ hi he => .element h ht hi he⟩

theorem _root_.Mes.Spec.SoundOn.mono {P Q : Int → Prop} {s : St} (h : SoundOn P s) (hq : ∀ a, Q a → P a) : SoundOn Q s :=
  ⟨h.base, h.fixed, fun a ha => h.inside a (hq a ha), fun a b x ha hb => h.disjoint a b x (hq a ha) (hq b hb),
    fun a ha => h.head a (hq a ha), fun a ha => h.length a (hq a ha), fun a ha => h.plain a (hq a ha),
    fun a ha => h.bytes a (hq a ha), fun a ha => h.blank a (hq a ha), fun a ha => h.whole a (hq a ha), h.sp⟩

theorem _root_.Mes.Spec.IsoOn.mono {P Q : Int → Prop} {f : Int → Int} {s s' : St} (h : IsoOn P f s s') (hq : ∀ a, Q a → P a) :
    IsoOn Q f s s' :=
  { h with
    cell := fun a ha => h.cell a (hq a ha)
    element := fun a ha => h.element a (hq a ha)
    inj := fun a b ha hb => h.inj a b (hq a ha) (hq b hb) }

/-- The objects of `P`, in the other memory. -/
def Img (P : Int → Prop) (f : Int → Int) (y : Int) : Prop := ∃ a, P a ∧ y = f a

/-- The memory `s'` holds the same data as `s`, as far as the objects in `P` are concerned, as in `IsoOn`; but the arenas may have
different sizes, and the stack of `s` may be larger by `d`. -/
structure Data (d : Int) (P : Int → Prop) (f : Int → Int) (s s' : St) : Prop where
  cell : ∀ a, P a → SameCell f (s.cell a) (s'.cell (f a))
  element : ∀ a, P a → isBlock (s.cell a).tag → ∀ i : Nat, i < (s.cell a).car →
    SameCell f (s.cell ((s.cell a).cdr + i)) (s'.cell ((s'.cell (f a)).cdr + i))
  inj : ∀ a b, P a → P b → f a = f b → a = b
  fixed : ∀ a, c_nil ≤ a → a < c_symbol_max → f a = a
  symbols : s'.symbols = f s.symbols
  macros : s'.macros = f s.macros
  ports : s'.ports = f s.ports
  m0 : s'.m0 = f s.m0
  r0 : s'.r0 = f s.r0
  r1 : s'.r1 = f s.r1
  r2 : s'.r2 = f s.r2
  r3 : s'.r3 = f s.r3
  sp : s.sp = s'.sp + d
  stackSize : s.stackSize = s'.stackSize + d
  stack : ∀ i, s'.sp ≤ i → i < s'.stackSize → s'.stack i = f (s.stack (i + d))
  maxString : s'.maxString = s.maxString
  continuations : s'.continuations = s.continuations

theorem Data.mono {d : Int} {P Q : Int → Prop} {f : Int → Int} {s s' : St} (h : Data d P f s s') (hq : ∀ a, Q a → P a) :
    Data d Q f s s' :=
  { h with
    cell := fun a ha => h.cell a (hq a ha)
    element := fun a ha => h.element a (hq a ha)
    inj := fun a b ha hb => h.inj a b (hq a ha) (hq b hb) }

/-- The first memory, with the sizes of the second. -/
def level (d : Int) (s s' : St) : St :=
  { s with
    arena := s'.arena, safety := s'.safety, limit := s'.limit, sp := s'.sp, stackSize := s'.stackSize
    stack := fun i => s.stack (i + d) }

theorem Data.level {d : Int} {P : Int → Prop} {f : Int → Int} {s s' : St} (h : Data d P f s s') : IsoOn P f (level d s s') s' :=
  ⟨h.cell, h.element, h.inj, h.fixed, h.symbols, h.macros, h.ports, h.m0, h.r0, h.r1, h.r2, h.r3, rfl, rfl, h.stack, rfl, rfl, rfl,
    h.maxString, h.continuations⟩

theorem Data.reach_level {d : Int} {P : Int → Prop} {f : Int → Int} {s s' : St} (h : Data d P f s s') {a : Int} :
    Reach (Gc.level d s s') a ↔ Reach s a := by
  have e1 := h.sp
  have e2 := h.stackSize
  constructor <;> intro ha
  · induction ha with
    | root hr =>
      refine .root ?_
      cases hr with
      | fixed h h' => exact .fixed h h'
      | stack h h' =>
        refine .stack ?_ ?_
        · have : s'.sp ≤ _ := h
          omega
        · have : _ < s'.stackSize := h'
          omega
      | symbols => exact .symbols
      | macros => exact .macros
      | ports => exact .ports
      | m0 => exact .m0
      | r0 => exact .r0
      | r1 => exact .r1
      | r2 => exact .r2
      | r3 => exact .r3
    | car _ ht ih => exact .car ih ht
    | cdr _ ht ih => exact .cdr ih ht
    | element _ ht hi he ih => exact .element ih ht hi he
  · induction ha with
    | root hr =>
      refine .root ?_
      cases hr with
      | fixed h h' => exact .fixed h h'
      | @stack i h h' =>
        have := Root.stack (s := Gc.level d s s') (i := i - d) (by show s'.sp ≤ _; omega) (by show _ < s'.stackSize; omega)
        simp only [Gc.level] at this
        rwa [Int.sub_add_cancel] at this
      | symbols => exact .symbols (s := Gc.level d s s')
      | macros => exact .macros (s := Gc.level d s s')
      | ports => exact .ports (s := Gc.level d s s')
      | m0 => exact .m0 (s := Gc.level d s s')
      | r0 => exact .r0 (s := Gc.level d s s')
      | r1 => exact .r1 (s := Gc.level d s s')
      | r2 => exact .r2 (s := Gc.level d s s')
      | r3 => exact .r3 (s := Gc.level d s s')
    | car _ ht ih => exact .car (s := Gc.level d s s') ih ht
    | cdr _ ht ih => exact .cdr (s := Gc.level d s s') ih ht
    | element _ ht hi he ih => exact .element (s := Gc.level d s s') ih ht hi he

theorem Data.reach {d : Int} {f : Int → Int} {s s' : St} (h : Data d (Reach s) f s s') {a : Int} (ha : Reach s a) : Reach s' (f a) :=
  Spec.Iso.reach (IsoOn.mono h.level fun _ hb => h.reach_level.1 hb) (h.reach_level.2 ha)

theorem Data.reach_inv {d : Int} {f : Int → Int} {s s' : St} (h : Data d (Reach s) f s s') {y : Int} (hy : Reach s' y) :
    ∃ a, Reach s a ∧ y = f a := by
  obtain ⟨a, h1, h2⟩ := Spec.Iso.reach_inv (IsoOn.mono h.level fun _ hb => h.reach_level.1 hb) hy
  exact ⟨a, h.reach_level.1 h1, h2⟩

/-- How two memories are compared. -/
structure Mode where
  /-- they have the same sizes, and the second is not fuller than the first -/
  exact : Prop
  /-- the size of the arena of the second -/
  arena : Int
  /-- the stack of the first is larger by this number of words -/
  deeper : Int

/-- The two memories hold the same data, as far as the objects in `P` are concerned, and are sound. -/
structure Rel (M : Mode) (P : Int → Prop) (f : Int → Int) (s s' : St) : Prop where
  closed : Closed P s
  closed' : Closed (Img P f) s'
  sound : SoundOn P s
  sound' : SoundOn (Img P f) s'
  iso : Data M.deeper P f s s'
  arena : s'.arena = M.arena
  /-- the second memory is not overfull -/
  room : s'.free ≤ s'.arena + 2
  /-- there is room for a collection -/
  cfg : 2 * (s'.arena + 2) ≤ s'.limit + 1
  deeper : 0 ≤ M.deeper
  tight : M.exact → M.deeper = 0 ∧ s'.free ≤ s.free ∧ s.free ≤ s.arena + 2 ∧ 5 ≤ s.sp ∧ s'.arena = s.arena ∧ s'.safety = s.safety ∧
    s'.limit = s.limit

variable {M : Mode} {P : Int → Prop} {f : Int → Int} {s s' : St}

theorem Rel.sound_reach (h : Rel M P f s s') : Sound s := h.sound.mono (fun _ ha => h.closed.reach ha)
theorem Rel.sound_reach' (h : Rel M P f s s') : Sound s' := h.sound'.mono (fun _ ha => h.closed'.reach ha)
theorem Rel.iso_reach (h : Rel M P f s s') (he : M.exact) : Iso f s s' := by
  obtain ⟨h0, -, -, -, h1, h2, h3⟩ := h.tight he
  have i := h.iso.mono (fun _ ha => h.closed.reach ha)
  have e1 := i.sp
  have e2 := i.stackSize
  exact { i with
    sp := by omega, stackSize := by omega, arena := h1, safety := h2, limit := h3
    stack := fun j j1 j2 => by rw [i.stack j (by omega) (by omega), h0, Int.add_zero] }

/-! ### Reading -/

theorem good_valid (hs : SoundOn P s) {a : Int} (ha : P a) : s.Valid a := by
  have := hs.inside a ha a (.inl rfl)
  simp only [c_nil] at this
  exact ⟨by omega, this.2⟩

theorem Rel.valid (h : Rel M P f s s') {a : Int} (ha : P a) : s.Valid a := good_valid h.sound ha
theorem Rel.valid' (h : Rel M P f s s') {a : Int} (ha : P a) : s'.Valid (f a) := good_valid h.sound' ⟨a, ha, rfl⟩
theorem Rel.fixed (h : Rel M P f s s') {a : Int} (h1 : c_nil ≤ a) (h2 : a < c_symbol_max) : P a ∧ f a = a :=
  ⟨h.closed.root a (.fixed h1 h2), h.iso.fixed a h1 h2⟩
theorem Rel.eq_iff (h : Rel M P f s s') {a b : Int} (ha : P a) (hb : P b) : f a = f b ↔ a = b :=
  ⟨h.iso.inj a b ha hb, fun h => by rw [h]⟩

/-! ### Allocating -/

theorem frame_root (hf : Ext s s') {a : Int} : Root s' a → Root s a := by
  obtain ⟨-, -, hr⟩ := hf
  intro h
  rw [← hr]
  cases h with
  | fixed h h' => exact .fixed h h'
  | symbols => exact .symbols (s := { s' with cell := s.cell, free := s.free })
  | macros => exact .macros (s := { s' with cell := s.cell, free := s.free })
  | ports => exact .ports (s := { s' with cell := s.cell, free := s.free })
  | m0 => exact .m0 (s := { s' with cell := s.cell, free := s.free })
  | r0 => exact .r0 (s := { s' with cell := s.cell, free := s.free })
  | r1 => exact .r1 (s := { s' with cell := s.cell, free := s.free })
  | r2 => exact .r2 (s := { s' with cell := s.cell, free := s.free })
  | r3 => exact .r3 (s := { s' with cell := s.cell, free := s.free })
  | stack h h' => exact .stack (s := { s' with cell := s.cell, free := s.free }) h h'

/-- The cells of the objects in `P` are unchanged. -/
def Keep (P : Int → Prop) (s t : St) : Prop := ∀ a, P a → ∀ x, Owns s a x → t.cell x = s.cell x

theorem Keep.of_ext (hs : SoundOn P s) (hf : Ext s s') : Keep P s s' :=
  fun a ha x hx => hf.same x (hs.inside a ha x hx).2 id

theorem Keep.cell (h : Keep P s s') {a : Int} (ha : P a) : s'.cell a = s.cell a := h a ha a (.inl rfl)

theorem owns_element {a : Int} (hb : isBlock (s.cell a).tag) {i : Nat} (hi : i < (s.cell a).car) :
    Owns s a ((s.cell a).cdr + i) := .inr (.inl ⟨hb, by omega, by omega⟩)

theorem Keep.element (h : Keep P s s') {a : Int} (ha : P a) (hb : isBlock (s.cell a).tag) {i : Nat} (hi : i < (s.cell a).car) :
    s'.cell ((s.cell a).cdr + i) = s.cell ((s.cell a).cdr + i) := h a ha _ (owns_element hb hi)

theorem closed_ext (hc : Closed P s) (hk : Keep P s s') (hr : ∀ a, Root s' a → P a) : Closed P s' := by
  refine ⟨hr, fun a ha ht => ?_, fun a ha ht => ?_, fun a ha ht i hi he => ?_⟩
  · rw [hk.cell ha] at ht ⊢; exact hc.car a ha ht
  · rw [hk.cell ha] at ht ⊢; exact hc.cdr a ha ht
  · rw [hk.cell ha] at ht hi he ⊢
    rw [hk.element ha ht hi] at he ⊢
    exact hc.element a ha ht i hi he

theorem owns_keep (hk : Keep P s s') {a x : Int} (ha : P a) : Owns s' a x ↔ Owns s a x := by
  unfold Owns
  rw [hk.cell ha]

theorem sound_ext (hs : SoundOn P s) (hk : Keep P s s') (hfree : s.free ≤ s'.free) (hroot : ∀ a, c_nil ≤ a → a < c_symbol_max → P a)
    (hsp : 0 ≤ s'.sp ∧ s'.sp ≤ s'.stackSize) : SoundOn P s' := by
  have hb := hs.base
  refine ⟨by omega, fun a h1 h2 => ?_, fun a ha x hx => ?_, fun a b x ha hb h1 h2 => ?_, fun a ha ht => ?_, fun a ha ht => ?_,
    fun a ha ht i hi => ?_, fun a ha ht => ?_, fun a ha ht => ?_, fun a ha => ?_, hsp⟩
  · rw [hk.cell (hroot a h1 h2)]; exact hs.fixed a h1 h2
  · have := hs.inside a ha x ((owns_keep hk ha).1 hx)
    omega
  · exact hs.disjoint a b x ha hb ((owns_keep hk ha).1 h1) ((owns_keep hk hb).1 h2)
  · rw [hk.cell ha] at ht ⊢; exact hs.head a ha ht
  · rw [hk.cell ha] at ht ⊢; exact hs.length a ha ht
  · rw [hk.cell ha] at ht hi ⊢
    rw [hk.element ha ht hi]
    exact hs.plain a ha ht i hi
  · rw [hk.cell ha] at ht ⊢; exact hs.bytes a ha ht
  · rw [hk.cell ha] at ht ⊢; exact hs.blank a ha ht
  · rw [hk.cell ha]; exact hs.whole a ha

/-- A new object: its cells are in use, belong to no other object, and it refers to known objects only. -/
structure Fresh (P : Int → Prop) (s : St) (n : Int) : Prop where
  new : ¬ P n
  inside : ∀ x, Owns s n x → c_nil ≤ x ∧ x < s.free
  disjoint : ∀ a x, P a → Owns s a x → ¬ Owns s n x
  head : isBlock (s.cell n).tag → ¬ ((s.cell n).cdr ≤ n ∧ n < (s.cell n).cdr + (s.cell n).car)
  length : isBlock (s.cell n).tag → 0 ≤ (s.cell n).car
  plain : isBlock (s.cell n).tag → ∀ i : Nat, i < (s.cell n).car →
    (s.cell ((s.cell n).cdr + i)).tag = .ref ∨ (s.cell ((s.cell n).cdr + i)).tag = .number ∨
    (s.cell ((s.cell n).cdr + i)).tag = .char
  bytes : (s.cell n).tag = .bytes → (s.cell n).car = (s.cell n).bytes.length
  blank : (s.cell n).tag ≠ .bytes → (s.cell n).bytes = []
  whole : (s.cell n).tag ≠ .brokenHeart
  car : refCar (s.cell n).tag → P (s.cell n).car
  cdr : refCdr (s.cell n).tag → P (s.cell n).cdr
  element : isBlock (s.cell n).tag → ∀ i : Nat, i < (s.cell n).car →
    (s.cell ((s.cell n).cdr + i)).tag = .ref → P (s.cell ((s.cell n).cdr + i)).car

/-- One more object. -/
def Add (P : Int → Prop) (n : Int) (a : Int) : Prop := a = n ∨ P a

theorem closed_add (hc : Closed P s) {n : Int} (hn : Fresh P s n) : Closed (Add P n) s := by
  refine ⟨fun a h => .inr (hc.root a h), fun a ha ht => ?_, fun a ha ht => ?_, fun a ha ht i hi he => ?_⟩ <;>
    rcases ha with rfl | ha
  · exact .inr (hn.car ht)
  · exact .inr (hc.car a ha ht)
  · exact .inr (hn.cdr ht)
  · exact .inr (hc.cdr a ha ht)
  · exact .inr (hn.element ht i hi he)
  · exact .inr (hc.element a ha ht i hi he)

theorem sound_add (hs : SoundOn P s) {n : Int} (hn : Fresh P s n) : SoundOn (Add P n) s := by
  refine ⟨hs.base, hs.fixed, fun a ha x hx => ?_, fun a b x ha hb h1 h2 => ?_, fun a ha => ?_, fun a ha => ?_,
    fun a ha => ?_, fun a ha => ?_, fun a ha => ?_, fun a ha => ?_, hs.sp⟩
  · rcases ha with rfl | ha
    · exact hn.inside x hx
    · exact hs.inside a ha x hx
  · rcases ha with rfl | ha <;> rcases hb with rfl | hb
    · rfl
    · exact absurd h1 (hn.disjoint b x hb h2)
    · exact absurd h2 (hn.disjoint a x ha h1)
    · exact hs.disjoint a b x ha hb h1 h2
  · rcases ha with rfl | ha
    · exact hn.head
    · exact hs.head a ha
  · rcases ha with rfl | ha
    · exact hn.length
    · exact hs.length a ha
  · rcases ha with rfl | ha
    · exact hn.plain
    · exact hs.plain a ha
  · rcases ha with rfl | ha
    · exact hn.bytes
    · exact hs.bytes a ha
  · rcases ha with rfl | ha
    · exact hn.blank
    · exact hs.blank a ha
  · rcases ha with rfl | ha
    · exact hn.whole
    · exact hs.whole a ha

/-- The address of the new object, too. -/
def ext (f : Int → Int) (n n' : Int) (a : Int) : Int := if a = n then n' else f a

theorem ext_old {n n' a : Int} (hn : ¬ P n) (ha : P a) : ext f n n' a = f a := by
  unfold ext
  rw [if_neg]
  rintro rfl
  exact hn ha

theorem img_add {n n' : Int} (hn : ¬ P n) (y : Int) : Img (Add P n) (ext f n n') y ↔ Add (Img P f) n' y := by
  constructor
  · rintro ⟨a, rfl | ha, rfl⟩
    · exact .inl (by simp [ext])
    · exact .inr ⟨a, ha, ext_old hn ha⟩
  · rintro (rfl | ⟨a, ha, rfl⟩)
    · exact ⟨n, .inl rfl, by simp [ext]⟩
    · exact ⟨a, .inr ha, (ext_old hn ha).symm⟩

theorem sameCell_mono {c c' : Cell} {g : Int → Int} (h : SameCell f c c') (h1 : refCar c.tag → g c.car = f c.car)
    (h2 : refCdr c.tag → g c.cdr = f c.cdr) : SameCell g c c' := by
  refine ⟨h.tag, ?_, fun a b => ?_, h.bytes⟩
  · rw [h.car]
    split
    · rw [h1 ‹_›]
    · rfl
  · rw [h.cdr a b]
    split
    · rw [h2 ‹_›]
    · rfl

theorem of_rest {t : St} (hf : Ext s t) : t = { s with cell := t.cell, free := t.free } := by
  obtain ⟨-, -, h⟩ := hf
  cases s; cases t
  simp only [St.mk.injEq] at h ⊢
  simp [h]

theorem iso_keep {d : Int} (h : Data d P f s s') {t t' : St} (hk : Keep P s t) (hk' : Keep (Img P f) s' t') (hf : Ext s t) (hf' : Ext s' t') :
    Data d P f t t' := by
  have e := of_rest hf
  have e' := of_rest hf'
  have h1 : ∀ a, P a → SameCell f (t.cell a) (t'.cell (f a)) := fun a ha => by
    rw [hk.cell ha, hk'.cell ⟨a, ha, rfl⟩]; exact h.cell a ha
  have h2 : ∀ a, P a → isBlock (t.cell a).tag → ∀ i : Nat, i < (t.cell a).car →
      SameCell f (t.cell ((t.cell a).cdr + i)) (t'.cell ((t'.cell (f a)).cdr + i)) := fun a ha hb i hi => by
    rw [hk.cell ha] at hb hi ⊢
    have hc := h.cell a ha
    rw [hk'.cell ⟨a, ha, rfl⟩, hk.element ha hb hi, hk'.element ⟨a, ha, rfl⟩ (by rw [hc.tag]; exact hb)
      (by rw [hc.car, if_neg (by revert hb; cases (s.cell a).tag <;> simp [isBlock, refCar])]; exact hi)]
    exact h.element a ha hb i hi
  rw [e, e'] at *
  exact ⟨h1, h2, h.inj, h.fixed, h.symbols, h.macros, h.ports, h.m0, h.r0, h.r1, h.r2, h.r3, h.sp, h.stackSize, h.stack,
    h.maxString, h.continuations⟩

theorem ext_sp {t : St} (hf : Ext s t) : t.sp = s.sp ∧ t.stackSize = s.stackSize := by
  rw [of_rest hf]; exact ⟨rfl, rfl⟩

/-- Allocation does not disturb what is there. -/
theorem Rel.grow (h : Rel M P f s s') {t t' : St} (hf : Ext s t) (hf' : Ext s' t') (hroom : t'.free ≤ t'.arena + 2)
    (hle : M.exact → t'.free ≤ t.free ∧ t.free ≤ t.arena + 2) : Rel M P f t t' := by
  have k1 := Keep.of_ext h.sound hf
  have k2 := Keep.of_ext h.sound' hf'
  have hsp := ext_sp hf
  have hsp' := ext_sp hf'
  refine ⟨closed_ext h.closed k1 (fun a ha => h.closed.root a (frame_root hf ha)),
    closed_ext h.closed' k2 (fun a ha => h.closed'.root a (frame_root hf' ha)),
    sound_ext h.sound k1 hf.le (fun a h1 h2 => h.closed.root a (.fixed h1 h2)) (by rw [hsp.1, hsp.2]; exact h.sound.sp),
    sound_ext h.sound' k2 hf'.le (fun a h1 h2 => h.closed'.root a (.fixed h1 h2)) (by rw [hsp'.1, hsp'.2]; exact h.sound'.sp),
    iso_keep h.iso k1 k2 hf hf', by rw [of_rest hf']; exact h.arena, hroom, by rw [of_rest hf']; exact h.cfg, h.deeper, fun he => ?_⟩
  obtain ⟨h0, -, -, h3, h4, h5, h6⟩ := h.tight he
  obtain ⟨g1, g2⟩ := hle he
  refine ⟨h0, g1, g2, ?_⟩
  rw [of_rest hf, of_rest hf']
  exact ⟨h3, h4, h5, h6⟩

/-- A new object on both sides. -/
theorem Rel.add (h : Rel M P f s s') {n n' : Int} (hn : Fresh P s n) (hn' : Fresh (Img P f) s' n')
    (hc : SameCell f (s.cell n) (s'.cell n'))
    (he : isBlock (s.cell n).tag → ∀ i : Nat, i < (s.cell n).car →
      SameCell f (s.cell ((s.cell n).cdr + i)) (s'.cell ((s'.cell n').cdr + i))) :
    Rel M (Add P n) (ext f n n') s s' ∧ ∀ a, P a → ext f n n' a = f a := by
  have ho : ∀ a, P a → ext f n n' a = f a := fun a ha => ext_old hn.new ha
  have himg : Img (Add P n) (ext f n n') = Add (Img P f) n' := funext fun y => propext (img_add hn.new y)
  have hroot : ∀ a, Root s a → ext f n n' a = f a := fun a ha => ho a (h.closed.root a ha)
  refine ⟨⟨closed_add h.closed hn, by rw [himg]; exact closed_add h.closed' hn', sound_add h.sound hn,
    by rw [himg]; exact sound_add h.sound' hn', ?_, h.arena, h.room, h.cfg, h.deeper, h.tight⟩, ho⟩
  have i := h.iso
  refine ⟨fun a ha => ?_, fun a ha hb j hj => ?_, fun a b ha hb hab => ?_, fun a h1 h2 => ?_, ?_, ?_, ?_, ?_, ?_, ?_, ?_, ?_,
    i.sp, i.stackSize, fun j h1 h2 => ?_, i.maxString, i.continuations⟩
  · rcases ha with rfl | ha
    · rw [show ext f a n' a = n' by simp [ext]]
      exact sameCell_mono hc (fun hr => ho _ (hn.car hr)) (fun hr => ho _ (hn.cdr hr))
    · rw [ho a ha]
      exact sameCell_mono (i.cell a ha) (fun hr => ho _ (h.closed.car a ha hr)) (fun hr => ho _ (h.closed.cdr a ha hr))
  · rcases ha with rfl | ha
    · rw [show ext f a n' a = n' by simp [ext]]
      refine sameCell_mono (he hb j hj) (fun hr => ho _ ?_) (fun hr => ?_)
      · rcases hn.plain hb j hj with hp | hp | hp
        · exact hn.element hb j hj hp
        · rw [hp] at hr; cases hr
        · rw [hp] at hr; cases hr
      · rcases hn.plain hb j hj with hp | hp | hp <;> rw [hp] at hr <;> cases hr
    · rw [ho a ha]
      refine sameCell_mono (i.element a ha hb j hj) (fun hr => ho _ ?_) (fun hr => ?_)
      · rcases h.sound.plain a ha hb j hj with hp | hp | hp
        · exact h.closed.element a ha hb j hj hp
        · rw [hp] at hr; cases hr
        · rw [hp] at hr; cases hr
      · rcases h.sound.plain a ha hb j hj with hp | hp | hp <;> rw [hp] at hr <;> cases hr
  · rcases ha with rfl | ha <;> rcases hb with rfl | hb
    · rfl
    · rw [ho b hb, show ext f a n' a = n' by simp [ext]] at hab
      exact absurd ⟨b, hb, hab⟩ hn'.new
    · rw [ho a ha, show ext f b n' b = n' by simp [ext]] at hab
      exact absurd ⟨a, ha, hab.symm⟩ hn'.new
    · rw [ho a ha, ho b hb] at hab
      exact i.inj a b ha hb hab
  · rw [hroot a (.fixed h1 h2)]; exact i.fixed a h1 h2
  · rw [hroot _ .symbols]; exact i.symbols
  · rw [hroot _ .macros]; exact i.macros
  · rw [hroot _ .ports]; exact i.ports
  · rw [hroot _ .m0]; exact i.m0
  · rw [hroot _ .r0]; exact i.r0
  · rw [hroot _ .r1]; exact i.r1
  · rw [hroot _ .r2]; exact i.r2
  · rw [hroot _ .r3]; exact i.r3
  · have e1 := i.sp
    have e2 := i.stackSize
    rw [hroot _ (.stack (by omega) (by omega))]; exact i.stack j h1 h2

/-! ### Primitives -/

/-- The outcomes correspond: equal errors, and corresponding results; but unless the comparison is exact the second memory may
be too small. -/
def SimR {α : Type} (M : Mode) (P : Int → Prop) (f : Int → Int) (V : (Int → Prop) → (Int → Int) → α → α → Prop) (m m' : Res α) : Prop :=
  match m with
  | .ok r => (m' = .abort ∧ ¬ M.exact) ∨ ∃ P' f' r', m' = .ok r' ∧ V P' f' r r' ∧ ∀ a, P a → P' a ∧ f' a = f a
  | .err k => (m' = .abort ∧ ¬ M.exact) ∨ m' = .err k
  | _ => True

/-- Corresponding addresses, in corresponding memories. -/
def Both (M : Mode) (P : Int → Prop) (f : Int → Int) (p p' : Int × St) : Prop := Rel M P f p.2 p'.2 ∧ P p.1 ∧ p'.1 = f p.1

/-- The outcomes correspond, for computations of an address. -/
abbrev Sim (M : Mode) (P : Int → Prop) (f : Int → Int) (m m' : Res (Int × St)) : Prop := SimR M P f (Both M) m m'

theorem Sim.mk {P' : Int → Prop} {f' : Int → Int} {t t' : St} {r : Int} {m' : Res (Int × St)} (e : m' = Res.ok (f' r, t')) (h : Rel M P' f' t t')
    (hr : P' r) (hm : ∀ a, P a → P' a ∧ f' a = f a) : Sim M P f (Res.ok (r, t)) m' :=
  .inr ⟨P', f', _, e, ⟨h, hr, rfl⟩, hm⟩

theorem SimR.err {α : Type} {V : (Int → Prop) → (Int → Int) → α → α → Prop} (k : Key) : SimR M P f V (Res.err k) (Res.err k) := .inr rfl

theorem SimR.bind {α β : Type} {V : (Int → Prop) → (Int → Int) → α → α → Prop} {W : (Int → Prop) → (Int → Int) → β → β → Prop}
    {m m' : Res α} {g g' : α → Res β} (h : SimR M P f V m m')
    (hg : ∀ P' f' r r', V P' f' r r' → (∀ a, P a → P' a ∧ f' a = f a) → m = Res.ok r → SimR M P' f' W (g r) (g' r')) :
    SimR M P f W (m >>= g) (m' >>= g') := by
  cases m with
  | ok r =>
    rcases h with ⟨rfl, hn⟩ | ⟨P', f', r', rfl, h1, h2⟩
    · show SimR M P f W (g r) Res.abort
      cases g r with
      | ok _ => exact .inl ⟨rfl, hn⟩
      | err _ => exact .inl ⟨rfl, hn⟩
      | _ => trivial
    · have := hg P' f' r r' h1 h2 rfl
      simp only [ok_bind]
      revert this
      cases g r with
      | ok q =>
        rintro (⟨e, hn⟩ | ⟨P2, f2, q', e, k1, k2⟩)
        · exact .inl ⟨e, hn⟩
        · exact .inr ⟨P2, f2, q', e, k1, fun a ha => ⟨(k2 a (h2 a ha).1).1, by rw [(k2 a (h2 a ha).1).2, (h2 a ha).2]⟩⟩
      | err k => exact id
      | _ => exact id
  | err k =>
    rcases h with ⟨rfl, hn⟩ | rfl
    · exact .inl ⟨rfl, hn⟩
    · exact .inr rfl
  | _ => trivial

/-- A cell that is an object of its own, of one cell. -/
structure Simple (P : Int → Prop) (c : Cell) : Prop where
  block : isBlock c.tag = false
  bytes : c.tag ≠ .bytes
  blank : c.bytes = []
  whole : c.tag ≠ .brokenHeart
  car : refCar c.tag → P c.car
  cdr : refCdr c.tag → P c.cdr

theorem fresh_push (hs : SoundOn P s) {c : Cell} (hc : Simple P c) : Fresh P (s.push c) s.free := by
  have hb := hs.base
  have ho : ∀ x, Owns (s.push c) s.free x → x = s.free := by
    rintro x (h | ⟨h, -⟩ | ⟨h, -⟩)
    · exact h
    · rw [St.push_cell_free, hc.block] at h; cases h
    · rw [St.push_cell_free] at h; exact absurd h hc.bytes
  have hk := Keep.of_ext hs (push_ext s c)
  have hnot : isBlock ((s.push c).cell s.free).tag → False := by
    rw [St.push_cell_free, hc.block]; simp
  refine ⟨fun h => ?_, fun x hx => ?_, fun a x ha hx hx' => ?_, fun h => (hnot h).elim, fun h => (hnot h).elim,
    fun h => (hnot h).elim, ?_, ?_, ?_, ?_, ?_, fun h => (hnot h).elim⟩
  · have := (hs.inside _ h _ (.inl rfl)).2; omega
  · rw [ho x hx]; simp only [c_nil, c_symbol_max, St.push_free] at *; omega
  · have h1 := (hs.inside a ha x ((owns_keep hk ha).1 hx)).2
    rw [ho x hx'] at h1; omega
  · rw [St.push_cell_free]; exact fun h => absurd h hc.bytes
  · rw [St.push_cell_free]; exact fun _ => hc.blank
  · rw [St.push_cell_free]; exact hc.whole
  · rw [St.push_cell_free]; exact hc.car
  · rw [St.push_cell_free]; exact hc.cdr

theorem Simple.img {c c' : Cell} (hc : Simple P c) (h : SameCell f c c') (hb : c'.bytes = []) : Simple (Img P f) c' := by
  refine ⟨by rw [h.tag]; exact hc.block, by rw [h.tag]; exact hc.bytes, hb, by rw [h.tag]; exact hc.whole, fun hr => ?_, fun hr => ?_⟩
  · rw [h.tag] at hr
    exact ⟨_, hc.car hr, by rw [h.car, if_pos hr]⟩
  · rw [h.tag] at hr
    exact ⟨_, hc.cdr hr, by rw [h.cdr hc.block hc.bytes, if_pos hr]⟩

theorem Rel.push (h : Rel M P f s s') {c c' : Cell} (hc : Simple P c) (hsc : SameCell f c c') (hb : c'.bytes = [])
    (hroom : s'.free + 1 ≤ s'.arena + 2) (hle : M.exact → s.free + 1 ≤ s.arena + 2) :
    Rel M (Add P s.free) (ext f s.free s'.free) (s.push c) (s'.push c') ∧ ∀ a, P a → ext f s.free s'.free a = f a := by
  have h1 := h.grow (push_ext s c) (push_ext s' c') hroom fun he => by
    have := h.tight he
    exact ⟨by simp; omega, hle he⟩
  refine h1.add (fresh_push h.sound hc) (fresh_push h.sound' (hc.img hsc hb)) ?_ ?_
  · rw [St.push_cell_free, St.push_cell_free]; exact hsc
  · rw [St.push_cell_free, hc.block]; intro hx; cases hx

theorem makeCell_eq (hs : SoundOn P s) (t : Tag) (a d : Int) :
    makeCell s t a d = if s.arena < s.free - 1 then abort else ok (s.free, s.push { tag := t, car := a, cdr := d }) := by
  have hb := hs.base
  simp only [c_symbol_max] at hb
  unfold makeCell
  simp only [g_cells]
  by_cases h : s.arena < s.free - 1
  · rw [if_pos (by omega), if_pos h]
  · rw [if_neg (by omega), if_neg h]; rfl

theorem makeCell_sim (h : Rel M P f s s') {t : Tag} {a d a' d' : Int} (hc : Simple P { tag := t, car := a, cdr := d })
    (hsc : SameCell f { tag := t, car := a, cdr := d } { tag := t, car := a', cdr := d' }) :
    Sim M P f (makeCell s t a d) (makeCell s' t a' d') := by
  rw [makeCell_eq h.sound, makeCell_eq h.sound']
  split
  · trivial
  · split
    · exact .inl ⟨rfl, fun he => by have := h.tight he; omega⟩
    · obtain ⟨h1, h2⟩ := h.push hc hsc rfl (by omega) (fun _ => by omega)
      exact .mk (by simp [ext]) h1 (.inl rfl) fun a ha => ⟨.inr ha, h2 a ha⟩

theorem cons_sim (h : Rel M P f s s') {x y : Int} (hx : P x) (hy : P y) : Sim M P f (cons s x y) (cons s' (f x) (f y)) :=
  makeCell_sim h ⟨rfl, nofun, rfl, nofun, fun _ => hx, fun _ => hy⟩ ⟨rfl, rfl, fun _ _ => rfl, nofun⟩

theorem makeNumber_sim (h : Rel M P f s s') (n : Int) : Sim M P f (makeNumber s n) (makeNumber s' n) :=
  makeCell_sim h ⟨rfl, nofun, rfl, nofun, nofun, nofun⟩ ⟨rfl, rfl, fun _ _ => rfl, nofun⟩

theorem makeChar_sim (h : Rel M P f s s') (n : Int) : Sim M P f (makeChar s n) (makeChar s' n) :=
  makeCell_sim h ⟨rfl, nofun, rfl, nofun, nofun, nofun⟩ ⟨rfl, rfl, fun _ _ => rfl, nofun⟩

/-- A result that is there already. -/
theorem Sim.ok (h : Rel M P f s s') {r : Int} (hr : P r) : Sim M P f (ok (r, s)) (ok (f r, s')) :=
  .mk rfl h hr fun _ ha => ⟨ha, rfl⟩

/-- The outcomes of two computations that do not change the memory correspond. -/
def SimV {α : Type} (V : α → α → Prop) (m m' : Res α) : Prop :=
  match m with
  | .ok r => ∃ r', m' = .ok r' ∧ V r r'
  | .err k => m' = .err k
  | _ => True

theorem SimV.bind {α β : Type} {V : α → α → Prop} {W : β → β → Prop} {m m' : Res α} {g g' : α → Res β} (h : SimV V m m')
    (hg : ∀ r r', m = Res.ok r → V r r' → SimV W (g r) (g' r')) : SimV W (m >>= g) (m' >>= g') := by
  cases m with
  | ok r => obtain ⟨r', rfl, hv⟩ := h; exact hg r r' rfl hv
  | err k => rw [show m' = err k from h]; exact rfl
  | abort => trivial
  | ub => trivial
  | loop => trivial

theorem SimV.simS {α β : Type} {V : α → α → Prop} {W : (Int → Prop) → (Int → Int) → β → β → Prop} {m m' : Res α} {g g' : α → Res β}
    (h : SimV V m m') (hg : ∀ r r', m = Res.ok r → V r r' → SimR M P f W (g r) (g' r')) : SimR M P f W (m >>= g) (m' >>= g') := by
  cases m with
  | ok r => obtain ⟨r', rfl, hv⟩ := h; exact hg r r' rfl hv
  | err k => rw [show m' = err k from h]; exact .inr rfl
  | abort => trivial
  | ub => trivial
  | loop => trivial

/-- Corresponding addresses. -/
def At (P : Int → Prop) (f : Int → Int) (r r' : Int) : Prop := P r ∧ r' = f r

theorem carP_sim (h : Rel M P f s s') {x : Int} (hx : P x) : SimV (At P f) (carP s x) (carP s' (f x)) := by
  have hc := h.iso.cell x hx
  simp only [carP, St.rd_ok (h.valid hx), St.rd_ok (h.valid' hx), ok_bind]
  rw [hc.tag]
  split
  · rfl
  · rename_i ht
    have ht : (s.cell x).tag = .pair := by simpa using ht
    exact ⟨_, rfl, h.closed.car x hx (by rw [ht]; rfl), by rw [hc.car, if_pos (by rw [ht]; rfl)]⟩

theorem cdrP_sim (h : Rel M P f s s') {x : Int} (hx : P x) : SimV (At P f) (cdrP s x) (cdrP s' (f x)) := by
  have hc := h.iso.cell x hx
  simp only [cdrP, St.rd_ok (h.valid hx), St.rd_ok (h.valid' hx), ok_bind]
  rw [hc.tag]
  split
  · rfl
  · rename_i ht
    have ht : (s.cell x).tag = .pair := by simpa using ht
    exact ⟨_, rfl, h.closed.cdr x hx (by rw [ht]; rfl),
      by rw [hc.cdr (by rw [ht]; rfl) (by rw [ht]; nofun), if_pos (by rw [ht]; rfl)]⟩

theorem numberArg_sim (h : Rel M P f s s') {x : Int} (hx : P x) : SimV Eq (numberArg s x) (numberArg s' (f x)) := by
  have hc := h.iso.cell x hx
  simp only [numberArg, St.rd_ok (h.valid hx), St.rd_ok (h.valid' hx), ok_bind]
  rw [hc.tag]
  split
  · rfl
  · rename_i ht
    have ht : (s.cell x).tag = .number := by simpa using ht
    exact ⟨_, rfl, by rw [hc.cdr (by rw [ht]; rfl) (by rw [ht]; nofun), if_neg (by rw [ht]; nofun)]⟩

theorem SimV.refl {α : Type} (m : Res α) : SimV Eq m m := by
  cases m with
  | ok r => exact ⟨r, rfl, rfl⟩
  | err k => rfl
  | abort => trivial
  | ub => trivial
  | loop => trivial

theorem Rel.nil_iff (h : Rel M P f s s') {x : Int} (hx : P x) : f x = c_nil ↔ x = c_nil := by
  have := h.fixed (a := c_nil) (by decide) (by decide)
  rw [← h.eq_iff hx this.1, this.2]

theorem foldNumbers_sim (h : Rel M P f s s') (op : Int → Int → Res Int) : ∀ (fuel : Nat) (n x : Int), P x →
    SimV Eq (foldNumbers s op fuel n x) (foldNumbers s' op fuel n (f x))
  | 0, _, _, _ => trivial
  | fuel + 1, n, x, hx => by
    rw [foldNumbers, foldNumbers]
    by_cases hn : x = c_nil
    · rw [if_pos hn, if_pos ((h.nil_iff hx).2 hn)]; exact ⟨_, rfl, rfl⟩
    · rw [if_neg hn, if_neg (fun e => hn ((h.nil_iff hx).1 e))]
      refine (carP_sim h hx).bind fun r r' _ hr => ?_
      obtain ⟨hr, rfl⟩ := hr
      refine (numberArg_sim h hr).bind fun v v' _ hv => ?_
      subst hv
      refine (SimV.refl (op n v)).bind fun w w' _ hw => ?_
      subst hw
      refine (cdrP_sim h hx).bind fun d d' _ hd => ?_
      obtain ⟨hd, rfl⟩ := hd
      exact foldNumbers_sim h op fuel _ _ hd

theorem plus_sim (h : Rel M P f s s') (fuel : Nat) {x : Int} (hx : P x) : Sim M P f (plus s fuel x) (plus s' fuel (f x)) :=
  (foldNumbers_sim h _ fuel 0 x hx).simS fun r r' _ hr => by subst hr; exact makeNumber_sim h _

theorem multiply_sim (h : Rel M P f s s') (fuel : Nat) {x : Int} (hx : P x) :
    Sim M P f (multiply s fuel x) (multiply s' fuel (f x)) :=
  (foldNumbers_sim h _ fuel 1 x hx).simS fun r r' _ hr => by subst hr; exact makeNumber_sim h _

/-- Reading the first word of a pair without a check. -/
theorem car_sim (h : Rel M P f s s') {x : Int} (hx : P x) (ht : (s.cell x).tag = .pair) :
    SimV (At P f) (s.car x) (s'.car (f x)) := by
  have hc := h.iso.cell x hx
  rw [St.car_ok (h.valid hx), St.car_ok (h.valid' hx)]
  exact ⟨_, rfl, h.closed.car x hx (by rw [ht]; rfl), by rw [hc.car, if_pos (by rw [ht]; rfl)]⟩

theorem cdr_sim (h : Rel M P f s s') {x : Int} (hx : P x) (ht : (s.cell x).tag = .pair) :
    SimV (At P f) (s.cdr x) (s'.cdr (f x)) := by
  have hc := h.iso.cell x hx
  rw [St.cdr_ok (h.valid hx), St.cdr_ok (h.valid' hx)]
  exact ⟨_, rfl, h.closed.cdr x hx (by rw [ht]; rfl),
    by rw [hc.cdr (by rw [ht]; rfl) (by rw [ht]; nofun), if_pos (by rw [ht]; rfl)]⟩

theorem minus_sim (h : Rel M P f s s') (fuel : Nat) {x : Int} (hx : P x) (ht : (s.cell x).tag = .pair) :
    Sim M P f (minus s fuel x) (minus s' fuel (f x)) := by
  refine (car_sim h hx ht).simS fun a a' _ ha => ?_
  obtain ⟨ha, rfl⟩ := ha
  refine (numberArg_sim h ha).simS fun n n' _ hn => ?_
  subst hn
  refine (cdrP_sim h hx).simS fun d d' _ hd => ?_
  obtain ⟨hd, rfl⟩ := hd
  have key : ∀ m : Int, Sim M P f (foldNumbers s (fun n v => ckLong (n - v)) fuel m d >>= makeNumber s)
      (foldNumbers s' (fun n v => ckLong (n - v)) fuel m (f d) >>= makeNumber s') := fun m =>
    (foldNumbers_sim h _ fuel _ d hd).simS fun r r' _ hr => by subst hr; exact makeNumber_sim h _
  dsimp only
  by_cases hn : d = c_nil
  · rw [if_pos hn, if_pos ((h.nil_iff hd).2 hn)]
    exact (SimV.refl _).simS fun r r' _ hr => by subst hr; exact key r
  · rw [if_neg hn, if_neg (fun e => hn ((h.nil_iff hd).1 e))]
    exact key n

theorem bool_fixed (h : Rel M P f s s') {r : Int} (hr : r = c_t ∨ r = c_f) : P r ∧ f r = r := by
  rcases hr with rfl | rfl <;> exact h.fixed (by decide) (by decide)

/-- A chain of pairs that ends in `()`. -/
inductive Proper (s : St) : Int → Prop
  | nil : Proper s c_nil
  | cons {x : Int} (ht : (s.cell x).tag = .pair) (h : Proper s (s.cell x).cdr) : Proper s x

theorem Proper.pair {x : Int} (h : Proper s x) (hn : x ≠ c_nil) : (s.cell x).tag = .pair := by
  cases h with
  | nil => exact absurd rfl hn
  | cons ht _ => exact ht

theorem cdrP_proper {x d : Int} (hp : Proper s x) (hn : x ≠ c_nil) (h : cdrP s x = ok d) : Proper s d := by
  cases hp with
  | nil => exact absurd rfl hn
  | cons ht hd =>
    simp only [cdrP, St.rd] at h
    split at h
    · simp only [ok_bind, ht] at h; simp at h; rw [← h]; exact hd
    · cases h

/-- A result of a comparison, in both memories. -/
def Same (r r' : Int) : Prop := r' = r ∧ (r = c_t ∨ r = c_f)

theorem cdr_value (h : Rel M P f s s') {x : Int} (hx : P x) (ht : (s.cell x).tag = .number ∨ (s.cell x).tag = .char) :
    SimV Eq (s.cdr x) (s'.cdr (f x)) := by
  have hc := h.iso.cell x hx
  rw [St.cdr_ok (h.valid hx), St.cdr_ok (h.valid' hx)]
  rcases ht with ht | ht <;>
    exact ⟨_, rfl, by rw [hc.cdr (by rw [ht]; rfl) (by rw [ht]; nofun), if_neg (by rw [ht]; nofun)]⟩

theorem numberArg_tag {x n : Int} (h : numberArg s x = ok n) : (s.cell x).tag = .number := by
  simp only [numberArg, St.rd] at h
  split at h
  · simp only [ok_bind] at h
    split at h
    · cases h
    · rename_i ht; simpa using ht
  · cases h

theorem car_carP {x a : Int} (ht : (s.cell x).tag = .pair) (h : s.car x = ok a) : carP s x = ok a := by
  simp only [St.car, St.rd, carP] at *
  split at h
  · rename_i hv
    rw [if_pos hv]
    simpa [ht] using h
  · cases h

theorem greaterLoop_sim (h : Rel M P f s s') : ∀ (fuel : Nat) (n x : Int), P x → Proper s x →
    SimV Same (greaterLoop s fuel n x) (greaterLoop s' fuel n (f x))
  | 0, _, _, _, _ => trivial
  | fuel + 1, n, x, hx, hp => by
    rw [greaterLoop, greaterLoop]
    by_cases hn : x = c_nil
    · rw [if_pos hn, if_pos ((h.nil_iff hx).2 hn)]; exact ⟨_, rfl, rfl, .inl rfl⟩
    · rw [if_neg hn, if_neg (fun e => hn ((h.nil_iff hx).1 e))]
      refine (car_sim h hx (hp.pair hn)).bind fun a a' ea ha => ?_
      obtain ⟨ha, rfl⟩ := ha
      refine (numberArg_sim h ha).bind fun _ _ hnum _ => ?_
      refine (carP_sim h hx).bind fun i i' ei hi => ?_
      obtain ⟨hi, rfl⟩ := hi
      have : i = a := by have := car_carP (hp.pair hn) ea; rw [ei] at this; cases this; rfl
      subst this
      refine (cdr_value h hi (.inl (numberArg_tag hnum))).bind fun v v' _ hv => ?_
      subst hv
      split
      · exact ⟨_, rfl, rfl, .inr rfl⟩
      · refine (cdrP_sim h hx).bind fun d d' ed hd => ?_
        obtain ⟨hd, rfl⟩ := hd
        exact greaterLoop_sim h fuel v d hd (cdrP_proper hp hn ed)

theorem lessLoop_sim (h : Rel M P f s s') : ∀ (fuel : Nat) (n x : Int), P x → Proper s x →
    SimV Same (lessLoop s fuel n x) (lessLoop s' fuel n (f x))
  | 0, _, _, _, _ => trivial
  | fuel + 1, n, x, hx, hp => by
    rw [lessLoop, lessLoop]
    by_cases hn : x = c_nil
    · rw [if_pos hn, if_pos ((h.nil_iff hx).2 hn)]; exact ⟨_, rfl, rfl, .inl rfl⟩
    · rw [if_neg hn, if_neg (fun e => hn ((h.nil_iff hx).1 e))]
      refine (car_sim h hx (hp.pair hn)).bind fun a a' ea ha => ?_
      obtain ⟨ha, rfl⟩ := ha
      refine (numberArg_sim h ha).bind fun _ _ hnum _ => ?_
      refine (carP_sim h hx).bind fun i i' ei hi => ?_
      obtain ⟨hi, rfl⟩ := hi
      have : i = a := by have := car_carP (hp.pair hn) ea; rw [ei] at this; cases this; rfl
      subst this
      refine (cdr_value h hi (.inl (numberArg_tag hnum))).bind fun v v' _ hv => ?_
      subst hv
      split
      · exact ⟨_, rfl, rfl, .inr rfl⟩
      · refine (cdrP_sim h hx).bind fun d d' ed hd => ?_
        obtain ⟨hd, rfl⟩ := hd
        exact lessLoop_sim h fuel v d hd (cdrP_proper hp hn ed)

theorem cdr_cell {x d : Int} (h : s.cdr x = ok d) : d = (s.cell x).cdr := by
  simp only [St.cdr, St.rd] at h
  split at h
  · simp at h; exact h.symm
  · cases h

theorem greaterP_sim (h : Rel M P f s s') (fuel : Nat) {x : Int} (hx : P x) (hp : Proper s x) :
    SimV Same (greaterP s fuel x) (greaterP s' fuel (f x)) := by
  rw [greaterP, greaterP]
  by_cases hn : x = c_nil
  · rw [if_pos hn, if_pos ((h.nil_iff hx).2 hn)]; exact ⟨_, rfl, rfl, .inl rfl⟩
  · rw [if_neg hn, if_neg (fun e => hn ((h.nil_iff hx).1 e))]
    have ht := hp.pair hn
    refine (car_sim h hx ht).bind fun a a' ea ha => ?_
    obtain ⟨ha, rfl⟩ := ha
    refine (numberArg_sim h ha).bind fun n n' _ hv => ?_
    subst hv
    refine (cdr_sim h hx ht).bind fun d d' ed hd => ?_
    obtain ⟨hd, rfl⟩ := hd
    refine greaterLoop_sim h fuel n d hd ?_
    cases hp with
    | nil => exact absurd rfl hn
    | cons _ hp => rw [cdr_cell ed]; exact hp

theorem lessP_sim (h : Rel M P f s s') (fuel : Nat) {x : Int} (hx : P x) (hp : Proper s x) :
    SimV Same (lessP s fuel x) (lessP s' fuel (f x)) := by
  rw [lessP, lessP]
  by_cases hn : x = c_nil
  · rw [if_pos hn, if_pos ((h.nil_iff hx).2 hn)]; exact ⟨_, rfl, rfl, .inl rfl⟩
  · rw [if_neg hn, if_neg (fun e => hn ((h.nil_iff hx).1 e))]
    have ht := hp.pair hn
    refine (car_sim h hx ht).bind fun a a' ea ha => ?_
    obtain ⟨ha, rfl⟩ := ha
    refine (numberArg_sim h ha).bind fun n n' _ hv => ?_
    subst hv
    refine (cdr_sim h hx ht).bind fun d d' ed hd => ?_
    obtain ⟨hd, rfl⟩ := hd
    refine lessLoop_sim h fuel n d hd ?_
    cases hp with
    | nil => exact absurd rfl hn
    | cons _ hp => rw [cdr_cell ed]; exact hp

theorem lengthLoop_sim (h : Rel M P f s s') : ∀ (fuel : Nat) (n x : Int), P x →
    SimV Eq (lengthLoop s fuel n x) (lengthLoop s' fuel n (f x))
  | 0, _, _, _ => trivial
  | fuel + 1, n, x, hx => by
    rw [lengthLoop, lengthLoop]
    by_cases hn : x = c_nil
    · rw [if_pos hn, if_pos ((h.nil_iff hx).2 hn)]; exact ⟨_, rfl, rfl⟩
    · rw [if_neg hn, if_neg (fun e => hn ((h.nil_iff hx).1 e))]
      have hc := h.iso.cell x hx
      simp only [St.rd_ok (h.valid hx), St.rd_ok (h.valid' hx), ok_bind]
      rw [hc.tag]
      split
      · exact ⟨_, rfl, rfl⟩
      · rename_i ht
        have ht : (s.cell x).tag = .pair := by simpa using ht
        rw [hc.cdr (by rw [ht]; rfl) (by rw [ht]; nofun), if_pos (by rw [ht]; rfl)]
        exact lengthLoop_sim h fuel _ _ (h.closed.cdr x hx (by rw [ht]; rfl))

theorem lengthP_sim (h : Rel M P f s s') (fuel : Nat) {x : Int} (hx : P x) :
    Sim M P f (lengthP s fuel x) (lengthP s' fuel (f x)) :=
  (lengthLoop_sim h fuel 0 x hx).simS fun r r' _ hr => by subst hr; exact makeNumber_sim h _

theorem stringEqual_sim (h : Rel M P f s s') {x y : Int} (hx : P x) (hy : P y) (tx : (s.cell x).tag = .keyword)
    (ty : (s.cell y).tag = .keyword) : SimV Same (stringEqual s x y) (stringEqual s' (f x) (f y)) := by
  have cx := h.iso.cell x hx
  have cy := h.iso.cell y hy
  have dx := cx.cdr (by rw [tx]; rfl) (by rw [tx]; nofun)
  have dy := cy.cdr (by rw [ty]; rfl) (by rw [ty]; nofun)
  have ax := cx.car
  have ay := cy.car
  rw [tx, if_pos (by rfl)] at dx
  rw [ty, if_pos (by rfl)] at dy
  rw [tx, if_neg (by nofun)] at ax
  rw [ty, if_neg (by nofun)] at ay
  have px := h.closed.cdr x hx (by rw [tx]; rfl)
  have py := h.closed.cdr y hy (by rw [ty]; rfl)
  have bb : ∀ z, P z → (s'.cell (f z)).bytes = (s.cell z).bytes := fun z hz => by
    have cz := h.iso.cell z hz
    by_cases ht : (s.cell z).tag = .bytes
    · exact cz.bytes ht
    · rw [h.sound.blank z hz ht, h.sound'.blank (f z) ⟨z, hz, rfl⟩ (by rw [cz.tag]; exact ht)]
  simp only [stringEqual, St.rd_ok (h.valid hx), St.rd_ok (h.valid' hx), St.rd_ok (h.valid hy), St.rd_ok (h.valid' hy), ok_bind,
    St.bytes, dx, dy, ax, ay, St.rd_ok (h.valid px), St.rd_ok (h.valid' px), St.rd_ok (h.valid py), St.rd_ok (h.valid' py),
    bb _ px, bb _ py, cx.tag, cy.tag, tx, ty, h.eq_iff hx hy, h.eq_iff px py]
  simp only [assert, ubUnless]
  repeat' split
  all_goals first
    | exact ⟨_, rfl, rfl, .inl rfl⟩
    | exact ⟨_, rfl, rfl, .inr rfl⟩
    | trivial
    | simp only [ok_bind]
  all_goals split
  all_goals first
    | exact ⟨_, rfl, rfl, .inl rfl⟩
    | exact ⟨_, rfl, rfl, .inr rfl⟩
    | trivial

theorem eqP_sim (h : Rel M P f s s') {x y : Int} (hx : P x) (hy : P y) : SimV Same (eqP s x y) (eqP s' (f x) (f y)) := by
  have cx := h.iso.cell x hx
  have cy := h.iso.cell y hy
  have vx : ∀ t : Tag, t = .number ∨ t = .char → (s.cell x).tag = t → (s'.cell (f x)).cdr = (s.cell x).cdr := by
    rintro t (rfl | rfl) ht <;>
      rw [cx.cdr (by rw [ht]; rfl) (by rw [ht]; nofun), if_neg (by rw [ht]; nofun)]
  have vy : ∀ t : Tag, t = .number ∨ t = .char → (s.cell y).tag = t → (s'.cell (f y)).cdr = (s.cell y).cdr := by
    rintro t (rfl | rfl) ht <;>
      rw [cy.cdr (by rw [ht]; rfl) (by rw [ht]; nofun), if_neg (by rw [ht]; nofun)]
  unfold eqP
  simp only [h.eq_iff hx hy, St.rd_ok (h.valid hx), St.rd_ok (h.valid' hx), St.rd_ok (h.valid hy), St.rd_ok (h.valid' hy), ok_bind,
    cx.tag, cy.tag]
  split
  · exact ⟨_, rfl, rfl, .inl rfl⟩
  · split
    · split
      · exact stringEqual_sim h hx hy ‹_› ‹_›
      · exact ⟨_, rfl, rfl, .inr rfl⟩
    · split
      · split
        · exact ⟨_, rfl, rfl, .inr rfl⟩
        · rename_i tx ty
          rw [vx _ (.inr rfl) tx, vy _ (.inr rfl) (by simpa using ty)]
          split
          · exact ⟨_, rfl, rfl, .inl rfl⟩
          · exact ⟨_, rfl, rfl, .inr rfl⟩
      · split
        · split
          · exact ⟨_, rfl, rfl, .inr rfl⟩
          · rename_i tx ty
            rw [vx _ (.inl rfl) tx, vy _ (.inl rfl) (by simpa using ty)]
            split
            · exact ⟨_, rfl, rfl, .inl rfl⟩
            · exact ⟨_, rfl, rfl, .inr rfl⟩
        · exact ⟨_, rfl, rfl, .inr rfl⟩

/-! ### Writing -/

/-- Cells are replaced, in objects that keep their type and size. -/
theorem Rel.patch (h : Rel M P f s s') {g g' : Int → Cell}
    (hsh : ∀ a, P a → (g a).tag = (s.cell a).tag ∧ (g a).bytes = (s.cell a).bytes ∧
      (isBlock (s.cell a).tag ∨ (s.cell a).tag = .bytes → g a = s.cell a))
    (hcar : ∀ a, P a → refCar (g a).tag → P (g a).car) (hcdr : ∀ a, P a → refCdr (g a).tag → P (g a).cdr)
    (hel : ∀ a, P a → isBlock (s.cell a).tag → ∀ i : Nat, i < (s.cell a).car →
      ((g ((s.cell a).cdr + i)).tag = .ref ∨ (g ((s.cell a).cdr + i)).tag = .number ∨ (g ((s.cell a).cdr + i)).tag = .char) ∧
      ((g ((s.cell a).cdr + i)).tag = .ref → P (g ((s.cell a).cdr + i)).car))
    (hsh' : ∀ a, P a → (g' (f a)).bytes = (s'.cell (f a)).bytes ∧
      (isBlock (s.cell a).tag ∨ (s.cell a).tag = .bytes → g' (f a) = s'.cell (f a)))
    (hcell : ∀ a, P a → SameCell f (g a) (g' (f a)))
    (hels : ∀ a, P a → isBlock (s.cell a).tag → ∀ i : Nat, i < (s.cell a).car →
      SameCell f (g ((s.cell a).cdr + i)) (g' ((s'.cell (f a)).cdr + i))) :
    Rel M P f { s with cell := g } { s' with cell := g' } := by
  have hb : ∀ a, P a → isBlock (g a).tag → isBlock (s.cell a).tag ∧ g a = s.cell a := fun a ha ht => by
    have := (hsh a ha).1 ▸ ht
    exact ⟨this, (hsh a ha).2.2 (.inl this)⟩
  have hb' : ∀ a, P a → isBlock (g' (f a)).tag → isBlock (s.cell a).tag ∧ g a = s.cell a ∧ g' (f a) = s'.cell (f a) ∧
      (s'.cell (f a)).car = (s.cell a).car := fun a ha ht => by
    rw [(hcell a ha).tag] at ht
    have h1 := hb a ha ht
    refine ⟨h1.1, h1.2, (hsh' a ha).2 (.inl h1.1), ?_⟩
    have := (h.iso.cell a ha).car
    rwa [if_neg (by have := h1.1; revert this; cases (s.cell a).tag <;> simp [isBlock, refCar])] at this
  have how : ∀ a, P a → ∀ x, Owns { s with cell := g } a x ↔ Owns s a x := fun a ha x => by
    unfold Owns
    simp only
    rw [(hsh a ha).1]
    by_cases h1 : isBlock (s.cell a).tag ∨ (s.cell a).tag = .bytes
    · rw [(hsh a ha).2.2 h1]
    · simp only [not_or, Bool.not_eq_true] at h1
      simp [h1.1, h1.2]
  have how' : ∀ a, P a → ∀ x, Owns { s' with cell := g' } (f a) x ↔ Owns s' (f a) x := fun a ha x => by
    unfold Owns
    simp only
    have e1 := (hcell a ha).tag
    have e2 := (hsh a ha).1
    have e3 := (h.iso.cell a ha).tag
    rw [e1, e2, e3]
    by_cases h1 : isBlock (s.cell a).tag ∨ (s.cell a).tag = .bytes
    · rw [(hsh' a ha).2 h1]
    · simp only [not_or, Bool.not_eq_true] at h1
      simp [h1.1, h1.2]
  have root : ∀ a, Root { s with cell := g } a → P a := fun a ha => h.closed.root a (by
    cases ha with
    | fixed h h' => exact .fixed h h'
    | stack h h' => exact .stack (s := s) h h'
    | symbols => exact .symbols
    | macros => exact .macros
    | ports => exact .ports
    | m0 => exact .m0
    | r0 => exact .r0
    | r1 => exact .r1
    | r2 => exact .r2
    | r3 => exact .r3)
  have root' : ∀ a, Root { s' with cell := g' } a → Img P f a := fun a ha => h.closed'.root a (by
    cases ha with
    | fixed h h' => exact .fixed h h'
    | stack h h' => exact .stack (s := s') h h'
    | symbols => exact .symbols
    | macros => exact .macros
    | ports => exact .ports
    | m0 => exact .m0
    | r0 => exact .r0
    | r1 => exact .r1
    | r2 => exact .r2
    | r3 => exact .r3)
  have i := h.iso
  have c1 : Closed P { s with cell := g } := by
    refine ⟨root, hcar, hcdr, fun a ha ht j hj he => ?_⟩
    obtain ⟨h1, h2⟩ := hb a ha ht
    simp only [h2] at hj he ⊢
    exact (hel a ha h1 j hj).2 he
  have elem' : ∀ a, P a → isBlock (g' (f a)).tag → ∀ j : Nat, j < (g' (f a)).car →
      SameCell f (g ((s.cell a).cdr + j)) (g' ((g' (f a)).cdr + j)) ∧ isBlock (s.cell a).tag ∧ j < (s.cell a).car :=
    fun a ha ht j hj => by
    obtain ⟨h1, -, h3, h4⟩ := hb' a ha ht
    rw [h3] at hj ⊢
    rw [h4] at hj
    exact ⟨hels a ha h1 j hj, h1, hj⟩
  have c2 : Closed (Img P f) { s' with cell := g' } := by
    refine ⟨root', ?_, ?_, ?_⟩
    · rintro _ ⟨a, ha, rfl⟩ ht
      have hc := hcell a ha
      have ht : refCar (g' (f a)).tag := ht
      rw [hc.tag] at ht
      exact ⟨(g a).car, hcar a ha ht, by show (g' (f a)).car = _; rw [hc.car, if_pos ht]⟩
    · rintro _ ⟨a, ha, rfl⟩ ht
      have hc := hcell a ha
      have ht : refCdr (g' (f a)).tag := ht
      rw [hc.tag] at ht
      have ht' : isBlock (g a).tag = false ∧ (g a).tag ≠ .bytes := by
        revert ht; cases (g a).tag <;> simp [isBlock, refCdr]
      exact ⟨(g a).cdr, hcdr a ha ht, by show (g' (f a)).cdr = _; rw [hc.cdr ht'.1 ht'.2, if_pos ht]⟩
    · rintro _ ⟨a, ha, rfl⟩ ht j hj he
      obtain ⟨h1, h2, h3⟩ := elem' a ha ht j hj
      have he' : (g ((s.cell a).cdr + j)).tag = .ref := by rw [← h1.tag]; exact he
      exact ⟨_, (hel a ha h2 j h3).2 he', by rw [h1.car, if_pos (by rw [he']; rfl)]⟩
  refine ⟨c1, c2, ?_, ?_, ?_, h.arena, h.room, h.cfg, h.deeper, h.tight⟩
  · have hs := h.sound
    refine ⟨hs.base, fun a h1 h2 => ?_, fun a ha x hx => hs.inside a ha x ((how a ha x).1 hx),
      fun a b x ha hb h1 h2 => hs.disjoint a b x ha hb ((how a ha x).1 h1) ((how b hb x).1 h2), fun a ha ht => ?_, fun a ha ht => ?_,
      fun a ha ht j hj => ?_, fun a ha ht => ?_, fun a ha ht => ?_, fun a ha => ?_, hs.sp⟩
    · have := hs.fixed a h1 h2
      rw [← (hsh a (h.closed.root a (.fixed h1 h2))).1] at this
      exact this
    · obtain ⟨h1, h2⟩ := hb a ha ht
      simp only [h2]; exact hs.head a ha h1
    · obtain ⟨h1, h2⟩ := hb a ha ht
      simp only [h2]; exact hs.length a ha h1
    · obtain ⟨h1, h2⟩ := hb a ha ht
      simp only [h2] at hj ⊢
      exact (hel a ha h1 j hj).1
    · have ht : (s.cell a).tag = .bytes := by rw [← (hsh a ha).1]; exact ht
      simp only [(hsh a ha).2.2 (.inr ht)]
      exact hs.bytes a ha ht
    · show (g a).bytes = []
      rw [(hsh a ha).2.1]
      exact hs.blank a ha (by rw [← (hsh a ha).1]; exact ht)
    · show (g a).tag ≠ _
      rw [(hsh a ha).1]
      exact hs.whole a ha
  · have hs := h.sound'
    have hg : ∀ a, P a → (g' (f a)).tag = (s'.cell (f a)).tag := fun a ha => by
      rw [(hcell a ha).tag, (hsh a ha).1, (i.cell a ha).tag]
    refine ⟨hs.base, fun a h1 h2 => ?_, ?_, ?_, ?_, ?_, ?_, ?_, ?_, ?_, hs.sp⟩
    · have := hs.fixed a h1 h2
      have hf := i.fixed a h1 h2
      have := hg a (h.closed.root a (.fixed h1 h2))
      rw [hf] at this
      show (g' a).tag = _
      rw [this]; assumption
    · rintro _ ⟨a, ha, rfl⟩ x hx
      exact hs.inside _ ⟨a, ha, rfl⟩ x ((how' a ha x).1 hx)
    · rintro _ _ x ⟨a, ha, rfl⟩ ⟨b, hb, rfl⟩ h1 h2
      exact hs.disjoint _ _ x ⟨a, ha, rfl⟩ ⟨b, hb, rfl⟩ ((how' a ha x).1 h1) ((how' b hb x).1 h2)
    · rintro _ ⟨a, ha, rfl⟩ ht
      obtain ⟨-, -, h3, -⟩ := hb' a ha ht
      have ht : isBlock (g' (f a)).tag := ht
      show ¬ ((g' (f a)).cdr ≤ _ ∧ _ < (g' (f a)).cdr + (g' (f a)).car)
      rw [h3] at ht ⊢
      exact hs.head _ ⟨a, ha, rfl⟩ ht
    · rintro _ ⟨a, ha, rfl⟩ ht
      obtain ⟨-, -, h3, -⟩ := hb' a ha ht
      have ht : isBlock (g' (f a)).tag := ht
      show 0 ≤ (g' (f a)).car
      rw [h3] at ht ⊢
      exact hs.length _ ⟨a, ha, rfl⟩ ht
    · rintro _ ⟨a, ha, rfl⟩ ht j hj
      obtain ⟨h1, h2, h3⟩ := elem' a ha ht j hj
      show (g' ((g' (f a)).cdr + j)).tag = .ref ∨ (g' ((g' (f a)).cdr + j)).tag = .number ∨ (g' ((g' (f a)).cdr + j)).tag = .char
      rw [h1.tag]
      exact (hel a ha h2 j h3).1
    · rintro _ ⟨a, ha, rfl⟩ ht
      have ht : (g' (f a)).tag = .bytes := ht
      have ht' : (s.cell a).tag = .bytes := by rw [← (hsh a ha).1, ← (hcell a ha).tag]; exact ht
      show (g' (f a)).car = (g' (f a)).bytes.length
      rw [(hsh' a ha).2 (.inr ht')] at ht ⊢
      exact hs.bytes _ ⟨a, ha, rfl⟩ ht
    · rintro _ ⟨a, ha, rfl⟩ ht
      show (g' (f a)).bytes = []
      rw [(hsh' a ha).1]
      exact hs.blank _ ⟨a, ha, rfl⟩ (by rw [← hg a ha]; exact ht)
    · rintro _ ⟨a, ha, rfl⟩
      show (g' (f a)).tag ≠ _
      rw [hg a ha]
      exact hs.whole _ ⟨a, ha, rfl⟩
  · refine ⟨hcell, fun a ha ht j hj => ?_, i.inj, i.fixed, i.symbols, i.macros, i.ports, i.m0, i.r0, i.r1, i.r2, i.r3,
      i.sp, i.stackSize, i.stack, i.maxString, i.continuations⟩
    obtain ⟨h1, h2⟩ := hb a ha ht
    simp only [h2] at hj ⊢
    show SameCell f _ (g' ((g' (f a)).cdr + j))
    rw [(hsh' a ha).2 (.inl h1)]
    exact hels a ha h1 j hj

/-- A pair is changed. -/
theorem Rel.setPair (h : Rel M P f s s') {x a d : Int} (hx : P x) (ht : (s.cell x).tag = .pair) (ha : P a) (hd : P d) :
    Rel M P f (s.upd x { s.cell x with car := a, cdr := d }) (s'.upd (f x) { s'.cell (f x) with car := f a, cdr := f d }) := by
  have hc := h.iso.cell x hx
  have ht' : (s'.cell (f x)).tag = .pair := by rw [hc.tag, ht]
  have off : ∀ b, P b → isBlock (s.cell b).tag → ∀ i : Nat, i < (s.cell b).car → (s.cell b).cdr + i ≠ x := fun b hb hbl i hi e => by
    have := h.sound.disjoint b x x hb hx (e ▸ owns_element hbl hi) (.inl rfl)
    subst this
    rw [ht] at hbl; cases hbl
  have off' : ∀ b, P b → isBlock (s.cell b).tag → ∀ i : Nat, i < (s.cell b).car → (s'.cell (f b)).cdr + i ≠ f x := fun b hb hbl i hi e => by
    have hcb := h.iso.cell b hb
    have e1 : isBlock (s'.cell (f b)).tag := by rw [hcb.tag]; exact hbl
    have e2 : (s'.cell (f b)).car = (s.cell b).car := by
      rw [hcb.car, if_neg (by revert hbl; cases (s.cell b).tag <;> simp [isBlock, refCar])]
    have := h.sound'.disjoint (f b) (f x) (f x) ⟨b, hb, rfl⟩ ⟨x, hx, rfl⟩ (e ▸ owns_element e1 (by omega)) (.inl rfl)
    rw [this, ht'] at e1; cases e1
  refine h.patch (fun b hb => ?_) (fun b hb hr => ?_) (fun b hb hr => ?_) (fun b hb hbl i hi => ?_) (fun b hb => ?_) (fun b hb => ?_)
    (fun b hb hbl i hi => ?_)
  · dsimp only
    split
    · subst b
      refine ⟨rfl, rfl, fun h => ?_⟩
      rw [ht] at h
      rcases h with h | h <;> cases h
    · exact ⟨rfl, rfl, fun _ => rfl⟩
  · dsimp only at hr ⊢
    split at hr
    · rw [if_pos ‹_›]; exact ha
    · rw [if_neg ‹_›]; exact h.closed.car b hb hr
  · dsimp only at hr ⊢
    split at hr
    · rw [if_pos ‹_›]; exact hd
    · rw [if_neg ‹_›]; exact h.closed.cdr b hb hr
  · rw [if_neg (off b hb hbl i hi)]
    exact ⟨h.sound.plain b hb hbl i hi, h.closed.element b hb hbl i hi⟩
  · dsimp only
    by_cases e : f b = f x
    · rw [if_pos e]
      have := h.iso.inj b x hb hx e
      subst this
      refine ⟨rfl, fun h => ?_⟩
      rw [ht] at h
      rcases h with h | h <;> cases h
    · rw [if_neg e]
      exact ⟨rfl, fun _ => rfl⟩
  · dsimp only
    by_cases e : b = x
    · subst e
      rw [if_pos rfl, if_pos rfl]
      refine ⟨ht'.trans ht.symm, ?_, fun _ _ => ?_, fun h => ?_⟩
      · rw [if_pos (by rw [ht]; rfl)]
      · rw [if_pos (by rw [ht]; rfl)]
      · rw [ht] at h; cases h
    · rw [if_neg e, if_neg (fun e' => e (h.iso.inj b x hb hx e'))]
      exact h.iso.cell b hb
  · rw [if_neg (off b hb hbl i hi), if_neg (off' b hb hbl i hi)]
    exact h.iso.element b hb hbl i hi

theorem setCarX_sim (h : Rel M P f s s') {x a : Int} (hx : P x) (ha : P a) : Sim M P f (setCarX s x a) (setCarX s' (f x) (f a)) := by
  have hc := h.iso.cell x hx
  have hu := h.fixed (a := c_unspecified) (by decide) (by decide)
  simp only [setCarX, St.setCar, St.rd_ok (h.valid hx), St.rd_ok (h.valid' hx), ok_bind, St.put_ok _ (h.valid hx), St.put_ok _ (h.valid' hx)]
  rw [hc.tag]
  split
  · exact .err _
  · rename_i ht
    have ht : (s.cell x).tag = .pair := by simpa using ht
    have := h.setPair hx ht ha (h.closed.cdr x hx (by rw [ht]; rfl))
    refine .mk (by rw [hu.2]) ?_ hu.1 fun b hb => ⟨hb, rfl⟩
    have hd := hc.cdr (by rw [ht]; rfl) (by rw [ht]; nofun)
    rw [ht, if_pos (by rfl)] at hd
    rw [← hd] at this
    simp only [hc.tag] at this
    exact this

theorem setCdrX_sim (h : Rel M P f s s') {x d : Int} (hx : P x) (hd : P d) : Sim M P f (setCdrX s x d) (setCdrX s' (f x) (f d)) := by
  have hc := h.iso.cell x hx
  have hu := h.fixed (a := c_unspecified) (by decide) (by decide)
  simp only [setCdrX, St.setCdr, St.rd_ok (h.valid hx), St.rd_ok (h.valid' hx), ok_bind, St.put_ok _ (h.valid hx), St.put_ok _ (h.valid' hx)]
  rw [hc.tag]
  split
  · exact .err _
  · rename_i ht
    have ht : (s.cell x).tag = .pair := by simpa using ht
    have := h.setPair hx ht (h.closed.car x hx (by rw [ht]; rfl)) hd
    refine .mk (by rw [hu.2]) ?_ hu.1 fun b hb => ⟨hb, rfl⟩
    have ha := hc.car
    rw [ht, if_pos (by rfl)] at ha
    rw [← ha] at this
    simp only [hc.tag] at this
    exact this

/-- What an element may hold. -/
structure Elem (P : Int → Prop) (c : Cell) : Prop where
  plain : c.tag = .ref ∨ c.tag = .number ∨ c.tag = .char
  ref : c.tag = .ref → P c.car

/-- An element of a vector is changed. -/
theorem Rel.setElem (h : Rel M P f s s') {v : Int} {j : Nat} {c c' : Cell} (hv : P v) (hbl : isBlock (s.cell v).tag)
    (hj : j < (s.cell v).car) (hc : Elem P c) (hsc : SameCell f c c') :
    Rel M P f (s.upd ((s.cell v).cdr + j) c) (s'.upd ((s'.cell (f v)).cdr + j) c') := by
  have hcv := h.iso.cell v hv
  have hbl' : isBlock (s'.cell (f v)).tag := by rw [hcv.tag]; exact hbl
  have hlen : ∀ b, P b → isBlock (s.cell b).tag → (s'.cell (f b)).car = (s.cell b).car := fun b hb hbb => by
    rw [(h.iso.cell b hb).car, if_neg (by revert hbb; cases (s.cell b).tag <;> simp [isBlock, refCar])]
  have off : ∀ b, P b → b ≠ (s.cell v).cdr + j := fun b hb e => by
    have := h.sound.disjoint v b b hv hb (e ▸ owns_element hbl hj) (.inl rfl)
    subst this
    exact h.sound.head v hv hbl ⟨by omega, by omega⟩
  have off' : ∀ b, P b → f b ≠ (s'.cell (f v)).cdr + j := fun b hb e => by
    have hj' : (j : Int) < (s'.cell (f v)).car := by rw [hlen v hv hbl]; exact hj
    have := h.sound'.disjoint (f v) (f b) (f b) ⟨v, hv, rfl⟩ ⟨b, hb, rfl⟩ (e ▸ owns_element hbl' hj') (.inl rfl)
    rw [← this] at e
    exact h.sound'.head (f v) ⟨v, hv, rfl⟩ hbl' ⟨by omega, by omega⟩
  have offel : ∀ b, P b → isBlock (s.cell b).tag → ∀ i : Nat, i < (s.cell b).car →
      (s.cell b).cdr + (i : Int) = (s.cell v).cdr + (j : Int) → b = v ∧ i = j := fun b hb hbb i hi e => by
    have := h.sound.disjoint b v _ hb hv (owns_element hbb hi) (e ▸ owns_element hbl hj)
    subst this
    exact ⟨rfl, by omega⟩
  have offel' : ∀ b, P b → isBlock (s.cell b).tag → ∀ i : Nat, i < (s.cell b).car →
      (s'.cell (f b)).cdr + (i : Int) = (s'.cell (f v)).cdr + (j : Int) → b = v ∧ i = j := fun b hb hbb i hi e => by
    have := h.sound'.disjoint (f b) (f v) _ ⟨b, hb, rfl⟩ ⟨v, hv, rfl⟩
      (owns_element (by rw [(h.iso.cell b hb).tag]; exact hbb) (by rw [hlen b hb hbb]; exact hi))
      (e ▸ owns_element hbl' (by rw [hlen v hv hbl]; exact hj))
    have := h.iso.inj b v hb hv this
    subst this
    exact ⟨rfl, by omega⟩
  refine h.patch (fun b hb => ?_) (fun b hb hr => ?_) (fun b hb hr => ?_) (fun b hb hbb i hi => ?_) (fun b hb => ?_) (fun b hb => ?_)
    (fun b hb hbb i hi => ?_)
  · rw [if_neg (off b hb)]; exact ⟨rfl, rfl, fun _ => rfl⟩
  · rw [if_neg (off b hb)] at hr ⊢; exact h.closed.car b hb hr
  · rw [if_neg (off b hb)] at hr ⊢; exact h.closed.cdr b hb hr
  · split
    · exact ⟨hc.plain, hc.ref⟩
    · exact ⟨h.sound.plain b hb hbb i hi, h.closed.element b hb hbb i hi⟩
  · rw [if_neg (off' b hb)]; exact ⟨rfl, fun _ => rfl⟩
  · rw [if_neg (off b hb), if_neg (off' b hb)]; exact h.iso.cell b hb
  · by_cases e : (s.cell b).cdr + (i : Int) = (s.cell v).cdr + (j : Int)
    · obtain ⟨rfl, rfl⟩ := offel b hb hbb i hi e
      rw [if_pos rfl, if_pos rfl]; exact hsc
    · rw [if_neg e, if_neg (fun e' => e (by obtain ⟨rfl, rfl⟩ := offel' b hb hbb i hi e'; rfl))]
      exact h.iso.element b hb hbb i hi

/-- A value is stored in the stack. -/
theorem Rel.setStack (h : Rel M P f s s') {i v : Int} (hv : P v) :
    Rel M P f { s with stack := fun j => if j = i + M.deeper then v else s.stack j }
      { s' with stack := fun j => if j = i then f v else s'.stack j } := by
  have e := h.iso
  have root : ∀ a, Root { s with stack := fun j => if j = i + M.deeper then v else s.stack j } a → P a := fun a ha => by
    cases ha with
    | fixed h1 h2 => exact h.closed.root a (.fixed h1 h2)
    | @stack j h1 h2 =>
      dsimp only
      split
      · exact hv
      · exact h.closed.root _ (.stack (s := s) h1 h2)
    | symbols => exact h.closed.root _ .symbols
    | macros => exact h.closed.root _ .macros
    | ports => exact h.closed.root _ .ports
    | m0 => exact h.closed.root _ .m0
    | r0 => exact h.closed.root _ .r0
    | r1 => exact h.closed.root _ .r1
    | r2 => exact h.closed.root _ .r2
    | r3 => exact h.closed.root _ .r3
  have root' : ∀ a, Root { s' with stack := fun j => if j = i then f v else s'.stack j } a → Img P f a := fun a ha => by
    cases ha with
    | fixed h1 h2 => exact h.closed'.root a (.fixed h1 h2)
    | @stack j h1 h2 =>
      dsimp only
      split
      · exact ⟨v, hv, rfl⟩
      · exact h.closed'.root _ (.stack (s := s') h1 h2)
    | symbols => exact h.closed'.root _ .symbols
    | macros => exact h.closed'.root _ .macros
    | ports => exact h.closed'.root _ .ports
    | m0 => exact h.closed'.root _ .m0
    | r0 => exact h.closed'.root _ .r0
    | r1 => exact h.closed'.root _ .r1
    | r2 => exact h.closed'.root _ .r2
    | r3 => exact h.closed'.root _ .r3
  refine ⟨⟨root, h.closed.car, h.closed.cdr, h.closed.element⟩, ⟨root', h.closed'.car, h.closed'.cdr, h.closed'.element⟩,
    { h.sound with }, { h.sound' with }, ?_, h.arena, h.room, h.cfg, h.deeper, h.tight⟩
  refine { e with stack := fun j h1 h2 => ?_ }
  dsimp only
  by_cases hj : j = i
  · rw [if_pos hj, if_pos (by omega)]
  · rw [if_neg hj, if_neg (by omega)]; exact e.stack j h1 h2

theorem SameCell.comp {g : Int → Int} {c c' c'' : Cell} (h : SameCell f c c') (h' : SameCell g c' c'') :
    SameCell (fun a => g (f a)) c c'' := by
  refine ⟨h'.tag.trans h.tag, ?_, fun h1 h2 => ?_, fun h1 => ?_⟩
  · rw [h'.car, h.tag, h.car]
    split <;> rfl
  · rw [h'.cdr (by rw [h.tag]; exact h1) (by rw [h.tag]; exact h2), h.tag, h.cdr h1 h2]
    split <;> rfl
  · rw [h'.bytes (by rw [h.tag]; exact h1), h.bytes h1]

/-- A collection in the second memory. -/
theorem Rel.gc (h : Rel M P f s s') {fuel : Nat} (hf : s'.arena + 2 < fuel) (h7 : 5 ≤ s'.sp) :
    ∃ s'' g, gc s' fuel = ok s'' ∧ Rel M (Reach s) g s s'' := by
  have hs' := h.sound_reach'
  have hle := liveSize_le hs'
  have h2 := h.room
  have h6 := h.cfg
  obtain ⟨L, s'', e1, e2⟩ := gc_ok hs' (by omega) (by omega) (fuel := fuel) (by omega)
  have i := h.iso.mono (fun _ ha => h.closed.reach ha)
  have j := e2.iso
  have jfree : s''.free ≤ s'.free := by
    have := e2.free
    rw [total_eq hs' e2.nodup e2.reach] at this
    omega
  refine ⟨s'', fun a => 3 + off s' L (f a), e1, closed_reach s, ?_, h.sound_reach, ?_, ?_, by rw [j.arena]; exact h.arena,
    by rw [j.arena]; omega, by rw [j.arena, j.limit]; exact h6, h.deeper, fun he => ?_⟩
  · have : Img (Reach s) (fun a => 3 + off s' L (f a)) = Reach s'' := funext fun y => propext ⟨?_, fun hy => ?_⟩
    · rw [this]; exact closed_reach s''
    · rintro ⟨a, ha, rfl⟩; exact j.reach (i.reach ha)
    · obtain ⟨b, hb, rfl⟩ := j.reach_inv hy
      obtain ⟨a, ha, rfl⟩ := i.reach_inv hb
      exact ⟨a, ha, rfl⟩
  · refine SoundOn.mono (e2.sound hs') ?_
    rintro y ⟨a, ha, rfl⟩; exact j.reach (i.reach ha)
  · refine ⟨fun a ha => SameCell.comp (f := f) (g := fun a => 3 + off s' L a) (i.cell a ha) (j.cell _ (i.reach ha)), fun a ha hb k hk => ?_, fun a b ha hb e => ?_,
      fun a h1 h2 => ?_, ?_, ?_, ?_, ?_, ?_, ?_, ?_, ?_, by rw [j.sp, i.sp], by rw [j.stackSize, i.stackSize], fun k h1 h2 => ?_,
      by rw [j.maxString, i.maxString],
      by rw [j.continuations, i.continuations]⟩
    · have hc := i.cell a ha
      refine SameCell.comp (f := f) (g := fun a => 3 + off s' L a) (i.element a ha hb k hk) (j.element _ (i.reach ha) (by rw [hc.tag]; exact hb) k ?_)
      rw [hc.car, if_neg (by revert hb; cases (s.cell a).tag <;> simp [isBlock, refCar])]
      exact hk
    · exact i.inj a b ha hb (j.inj _ _ (i.reach ha) (i.reach hb) e)
    · show 3 + (off s' L (f a) : Int) = a
      rw [i.fixed a h1 h2]; exact j.fixed a h1 h2
    · rw [j.symbols, i.symbols]
    · rw [j.macros, i.macros]
    · rw [j.ports, i.ports]
    · rw [j.m0, i.m0]
    · rw [j.r0, i.r0]
    · rw [j.r1, i.r1]
    · rw [j.r2, i.r2]
    · rw [j.r3, i.r3]
    · rw [j.sp] at h1
      rw [j.stackSize] at h2
      rw [j.stack k h1 h2, i.stack k h1 h2]
  · have := h.tight he
    rw [j.arena, j.safety, j.limit]
    omega

/-! ### Vectors -/

/-- Characters and numbers are stored in the element itself. -/
def direct (s : St) (e : Int) : Bool := decide ((s.cell e).tag = .char ∨ (s.cell e).tag = .number)

/-- The contents of an element that holds `e`. -/
def entryCell (s : St) (e : Int) : Cell :=
  if direct s e then { s.cell e with bytes := [] } else { tag := .ref, car := e, cdr := 0 }

/-- The number of cells that storing allocates. -/
def extra (s : St) (e : Int) : Int := if direct s e then 0 else 1

theorem setEntry_exact (hb : c_symbol_max ≤ s.free) {p e : Int} (hp : s.Valid p) (he : s.Valid e) :
    (s.free + extra s e ≤ s.arena + 2 ∨ direct s e → ∃ t, setEntry s p e = ok t ∧
      t = (if direct s e then s else s.push { tag := .ref, car := e, cdr := 0 }).upd p (entryCell s e)) ∧
    (¬ direct s e → s.arena + 2 < s.free + extra s e → setEntry s p e = abort) := by
  simp only [c_symbol_max] at hb
  by_cases hd : (s.cell e).tag = .char ∨ (s.cell e).tag = .number
  · have hd' : direct s e = true := by simp [direct, hd]
    refine ⟨fun _ => ⟨_, ?_, rfl⟩, fun h => absurd hd' h⟩
    simp only [setEntry, vectorEntry, St.rd_ok he, ok_bind, St.copyCell]
    rw [if_neg (by rcases hd with h | h <;> simp [h]), if_pos hd', entryCell, if_pos hd']
    simp only [ok_bind, St.rd_ok he, St.put_ok _ hp]
  · have hd' : direct s e = false := by simpa [direct] using hd
    have hn : (s.cell e).tag ≠ .char ∧ (s.cell e).tag ≠ .number := by simpa using hd
    simp only [extra, hd', Bool.false_eq_true, if_false, or_false, not_false_iff, true_implies, entryCell]
    have hx := push_ext s { tag := .ref, car := e, cdr := 0 }
    constructor
    · intro h
      refine ⟨_, ?_, rfl⟩
      have hr : Room s 1 := ⟨hb, by simp only [g_cells]; omega⟩
      simp only [setEntry, vectorEntry, St.rd_ok he, ok_bind, if_pos hn, makeRef_ok hr, St.copyCell,
        St.rd_ok (hr.free_valid _), St.push_cell_free, St.put_ok _ (hx.valid hp)]
    · intro h
      simp only [setEntry, vectorEntry, St.rd_ok he, ok_bind, if_pos hn, makeRef, makeCell, g_cells]
      rw [if_pos (by omega)]; rfl

theorem direct_ext {t : St} {e : Int} (h : t.cell e = s.cell e) : direct t e = direct s e := by unfold direct; rw [h]
theorem entryCell_ext {t : St} {e : Int} (h : t.cell e = s.cell e) : entryCell t e = entryCell s e := by
  unfold entryCell; rw [direct_ext h, h]
theorem extra_ext {t : St} {e : Int} (h : t.cell e = s.cell e) : extra t e = extra s e := by unfold extra; rw [direct_ext h]

theorem fillVector_exact : ∀ (n : Nat) {s : St} {v e : Int}, c_symbol_max ≤ s.free → s.Valid e → (∀ i : Nat, i < n → s.Valid (v + i)) →
    (e < v ∨ v + n ≤ e) → s.free ≤ s.arena + 2 →
    (s.free + n * extra s e ≤ s.arena + 2 → ∃ t, fillVector n s v e = ok t ∧ Frame (fun a => v ≤ a ∧ a < v + n) s t ∧
      (∀ i : Nat, i < n → t.cell (v + i) = entryCell s e) ∧ t.free = s.free + n * extra s e) ∧
    (s.arena + 2 < s.free + n * extra s e → fillVector n s v e = abort)
  | 0, s, v, e, hb, he, hv, hd, hr => by
    refine ⟨fun _ => ⟨s, rfl, .refl .., fun i hi => by omega, by simp⟩, fun h => by simp at h; omega⟩
  | n + 1, s, v, e, hb, he, hv, hd, hr => by
    have hp : s.Valid v := by simpa using hv 0 (by omega)
    obtain ⟨h1, h2⟩ := setEntry_exact hb hp he
    have hx := push_ext s { tag := .ref, car := e, cdr := 0 }
    have hx01 : extra s e = 0 ∧ direct s e = true ∨ extra s e = 1 ∧ direct s e = false := by
      unfold extra; cases direct s e <;> simp
    by_cases hroom : s.free + extra s e ≤ s.arena + 2
    · obtain ⟨t, e1, e2⟩ := h1 (.inl hroom)
      have hf : Frame (· = v) s t := by
        rw [e2]
        split
        · exact upd_frame ..
        · exact hx.frame.trans (upd_frame ..)
      have hfree : t.free = s.free + extra s e := by
        rw [e2]
        rcases hx01 with ⟨a, b⟩ | ⟨a, b⟩ <;> simp [a, b]
      have hcell : t.cell e = s.cell e := hf.same e he.2 (by omega)
      have harena : t.arena = s.arena := by have := hf.rest; rw [← this]
      have htv : t.cell v = entryCell s e := by rw [e2]; simp
      obtain ⟨g1, g2⟩ := fillVector_exact n (s := t) (v := v + 1) (e := e) (by omega) (hf.valid he)
        (fun i hi => hf.valid (by
          have := hv (i + 1) (by omega)
          rwa [show v + ((i + 1 : Nat) : Int) = v + 1 + (i : Int) by omega] at this)) (by omega) (by omega)
      have hlin : ((n + 1 : Nat) : Int) * extra s e = extra s e + n * extra s e := by
        rw [show ((n + 1 : Nat) : Int) = 1 + (n : Int) by omega, Int.add_mul, Int.one_mul]
      rw [extra_ext hcell, hfree, harena] at g1 g2
      rw [hlin]
      constructor
      · intro h
        obtain ⟨u, k1, k2, k3, k4⟩ := g1 (by omega)
        refine ⟨u, by rw [fillVector, e1]; exact k1, ?_, fun i hi => ?_, by omega⟩
        · exact (hf.mono (fun a _ e => by omega)).trans (k2.mono (fun a _ e => by omega))
        · cases i with
          | zero =>
            rw [show v + ((0 : Nat) : Int) = v by omega, k2.same v (hf.valid hp).2 (by omega), htv]
          | succ i =>
            rw [show v + ((i + 1 : Nat) : Int) = v + 1 + (i : Int) by omega, k3 i (by omega), entryCell_ext hcell]
      · intro h
        rw [fillVector, e1]; exact g2 (by omega)
    · have hd' : ¬ direct s e = true := by rcases hx01 with ⟨a, b⟩ | ⟨a, b⟩ <;> simp [b]; omega
      constructor
      · intro h
        exfalso
        rcases hx01 with ⟨a, b⟩ | ⟨a, b⟩
        · omega
        · rw [a] at h hroom; omega
      · intro _
        rw [fillVector, h2 hd' (by omega)]; rfl

/-- The size of a new vector, with the cells allocated on the way. -/
def vecSize (s : St) (k : Nat) (e : Int) : Int := 1 + k + k * extra s e

theorem makeVector_exact (hb : c_symbol_max ≤ s.free) {k : Nat} {e : Int} (he : s.Valid e) :
    (s.free + vecSize s k e ≤ s.arena + 2 → ∃ t, makeVector s k e = ok (s.free, t) ∧ Ext s t ∧
      t.cell s.free = { tag := .vector, car := k, cdr := s.free + 1 } ∧
      (∀ i : Nat, i < k → t.cell (s.free + 1 + i) = entryCell s e) ∧ t.free = s.free + vecSize s k e) ∧
    (s.arena + 2 < s.free + vecSize s k e → makeVector s k e = abort) := by
  have hb' := hb
  simp only [c_symbol_max] at hb'
  have hx0 : 0 ≤ extra s e := by unfold extra; split <;> omega
  have hm : 0 ≤ (k : Int) * extra s e := Int.mul_nonneg (by omega) hx0
  by_cases h1 : s.free + 1 + k ≤ s.arena + 2
  · let s2 : St := { s with free := s.free + 1 + k }
    let s3 := s2.upd s.free { tag := .vector, car := k, cdr := s.free + 1 }
    have hv2 : s2.Valid s.free := ⟨by omega, by show s.free < s.free + 1 + k; omega⟩
    have e3 : Ext s s3 := (show Ext s s2 from ⟨by show s.free ≤ s.free + 1 + k; omega, fun _ _ _ => rfl, rfl⟩).trans'
      (upd_frame ..) (fun a h1 h2 => by omega)
    have hrun : makeVector s k e = (fillVector k s3 (s.free + 1) e >>= fun t => ok (s.free, t)) := by
      simp only [makeVector, alloc, g_cells]
      rw [if_neg (by omega)]
      simp only [ok_bind]
      rw [if_neg (by omega)]
      simp only [ok_bind]
      rw [show ({ s with free := s.free + 1 + (k : Int) } : St) = s2 from rfl, St.put_ok _ hv2]
      simp only [ok_bind, Int.toNat_natCast]
      rfl
    have hce : s3.cell e = s.cell e := e3.same e he.2 (by simp)
    obtain ⟨g1, g2⟩ := fillVector_exact k (s := s3) (v := s.free + 1) (e := e) (by show c_symbol_max ≤ s.free + 1 + k; simp only [c_symbol_max]; omega) (e3.valid he)
      (fun i hi => ⟨by omega, by show s.free + 1 + (i : Int) < s.free + 1 + k; omega⟩) (.inl (by have := he.2; omega)) (by show s.free + 1 + k ≤ s.arena + 2; omega)
    rw [extra_ext hce] at g1 g2
    rw [hrun]
    have hs3 : s3.free = s.free + 1 + k := rfl
    have ha3 : s3.arena = s.arena := rfl
    rw [hs3, ha3] at g1 g2
    constructor
    · intro h
      obtain ⟨t, k1, k2, k3, k4⟩ := g1 (by unfold vecSize at h; omega)
      refine ⟨t, by rw [k1]; rfl, e3.trans' k2 (fun a h1 h2 => by omega), ?_, fun i hi => ?_, by unfold vecSize; omega⟩
      · rw [k2.same s.free (by show s.free < s.free + 1 + k; omega) (by omega)]; simp [s3]
      · rw [k3 i hi, entryCell_ext hce]
    · intro h
      rw [g2 (by unfold vecSize at h; omega)]; rfl
  · constructor
    · intro h; unfold vecSize at h; omega
    · intro _
      simp only [makeVector, alloc, g_cells]
      by_cases h2 : s.arena < s.free + 1 - 2
      · rw [if_pos (by omega)]; rfl
      · rw [if_neg (by omega)]
        simp only [ok_bind]
        rw [if_pos (by omega)]; rfl

theorem entryCell_elem (hs : SoundOn P s) {e : Int} (he : P e) : Elem P (entryCell s e) := by
  unfold entryCell
  split
  · rename_i hd
    have hd : (s.cell e).tag = .char ∨ (s.cell e).tag = .number := by simpa [direct] using hd
    refine ⟨?_, fun h => ?_⟩
    · rcases hd with h | h <;> simp [h]
    · rcases hd with h' | h' <;> rw [h'] at h <;> cases h
  · exact ⟨.inl rfl, fun _ => he⟩

theorem direct_iso (h : Rel M P f s s') {e : Int} (he : P e) : direct s' (f e) = direct s e := by
  unfold direct; rw [(h.iso.cell e he).tag]

theorem entryCell_iso (h : Rel M P f s s') {e : Int} (he : P e) : SameCell f (entryCell s e) (entryCell s' (f e)) := by
  have hc := h.iso.cell e he
  unfold entryCell
  rw [direct_iso h he]
  split
  · rename_i hd
    have hd : (s.cell e).tag = .char ∨ (s.cell e).tag = .number := by simpa [direct] using hd
    exact ⟨hc.tag, hc.car, hc.cdr, fun h => by rcases hd with h' | h' <;> rw [h'] at h <;> cases h⟩
  · exact ⟨rfl, rfl, fun _ _ => rfl, nofun⟩

theorem makeVector_sim (h : Rel M P f s s') (k : Nat) {e : Int} (he : P e) : Sim M P f (makeVector s k e) (makeVector s' k (f e)) := by
  obtain ⟨a1, a2⟩ := makeVector_exact (k := k) h.sound.base (h.valid he)
  obtain ⟨b1, b2⟩ := makeVector_exact (k := k) h.sound'.base (h.valid' he)
  have hvs : vecSize s' k (f e) = vecSize s k e := by unfold vecSize extra; rw [direct_iso h he]
  by_cases hr : s.free + vecSize s k e ≤ s.arena + 2
  · obtain ⟨t, t1, t2, t3, t4, t5⟩ := a1 hr
    by_cases hr' : s'.free + vecSize s k e ≤ s'.arena + 2
    case neg =>
      rw [t1, b2 (by omega)]
      exact .inl ⟨rfl, fun he => by have := h.tight he; omega⟩
    obtain ⟨t', u1, u2, u3, u4, u5⟩ := b1 (by omega)
    rw [t1, u1]
    have hat' : t'.arena = s'.arena := by rw [of_rest u2]
    have hat : t.arena = s.arena := by rw [of_rest t2]
    have hx0 : 0 ≤ extra s e := by unfold extra; split <;> omega
    have hm : 0 ≤ (k : Int) * extra s e := Int.mul_nonneg (by omega) hx0
    have hrel := h.grow t2 u2 (by omega) (fun he => by have := h.tight he; omega)
    have key : ∀ {Q : Int → Prop} {q q' : St} {x : Int}, SoundOn Q q → Ext q q' → Q x →
        q'.cell q.free = { tag := .vector, car := k, cdr := q.free + 1 } →
        (∀ i : Nat, i < k → q'.cell (q.free + 1 + i) = entryCell q x) → q.free + 1 + k ≤ q'.free → Fresh Q q' q.free := by
      intro Q q q' x hq hqq hx c1 c2 c3
      have hb := hq.base
      have hel := entryCell_elem hq hx
      have hk := Keep.of_ext hq hqq
      have how : ∀ y, Owns q' q.free y → q.free ≤ y ∧ y < q'.free := by
        rintro y (h1 | ⟨-, h1, h2⟩ | ⟨h1, -⟩)
        · subst h1; omega
        · rw [c1] at h1 h2; dsimp only at h1 h2; omega
        · rw [c1] at h1; cases h1
      refine ⟨fun hn => ?_, fun y hy => ?_, fun a y ha h1 h2 => ?_, fun _ => ?_, fun _ => ?_, fun _ i hi => ?_, fun h1 => ?_, fun _ => ?_, ?_,
        fun h1 => ?_, fun h1 => ?_, fun _ i hi h1 => ?_⟩
      · have := (hq.inside _ hn _ (.inl rfl)).2; omega
      · have := how y hy
        simp only [c_nil, c_symbol_max] at *; omega
      · have h3 := (hq.inside a ha y ((owns_keep hk ha).1 h1)).2
        have := how y h2; omega
      · rw [c1]; dsimp only; omega
      · rw [c1]; dsimp only; omega
      · rw [c1] at hi ⊢; dsimp only at hi ⊢
        rw [c2 i (by omega)]; exact hel.plain
      · rw [c1] at h1; cases h1
      · rw [c1]
      · rw [c1]; simp
      · rw [c1] at h1; cases h1
      · rw [c1] at h1; cases h1
      · rw [c1] at hi h1 ⊢; dsimp only at hi h1 ⊢
        rw [c2 i (by omega)] at h1 ⊢; exact hel.ref h1
    obtain ⟨r1, r2⟩ := hrel.add (n := s.free) (n' := s'.free) (key h.sound t2 he t3 t4 (by unfold vecSize at t5; omega))
      (key h.sound' u2 ⟨e, he, rfl⟩ u3 u4 (by unfold vecSize at hvs t5 u5; omega))
      (by rw [t3, u3]; exact ⟨rfl, rfl, (fun h => by cases h), (fun h => by cases h)⟩)
      (fun _ i hi => by
        rw [t3] at hi ⊢; rw [u3]; dsimp only at hi ⊢
        rw [t4 i (by omega), u4 i (by omega)]; exact entryCell_iso h he)
    exact .mk (by simp [ext]) r1 (.inl rfl) fun a ha => ⟨.inr ha, r2 a ha⟩
  · rw [a2 (by omega)]; trivial

theorem vectorLength_sim (h : Rel M P f s s') {v : Int} (hv : P v) : Sim M P f (vectorLength s v) (vectorLength s' (f v)) := by
  have hc := h.iso.cell v hv
  simp only [vectorLength, St.rd_ok (h.valid hv), St.rd_ok (h.valid' hv), ok_bind]
  rw [hc.tag]
  by_cases ht : (s.cell v).tag = .vector
  · simp only [assert, ht, if_true, ok_bind]
    rw [hc.car, if_neg (by rw [ht]; nofun)]
    exact makeNumber_sim h _
  · simp only [assert, ht, if_false]; trivial

theorem vectorRef_sim (h : Rel M P f s s') {v : Int} (i : Nat) (hv : P v) : Sim M P f (vectorRef s v i) (vectorRef s' (f v) i) := by
  have hc := h.iso.cell v hv
  simp only [vectorRef, St.rd_ok (h.valid hv), St.rd_ok (h.valid' hv), ok_bind]
  rw [hc.tag]
  by_cases ht : (s.cell v).tag = .vector
  · have hbl : isBlock (s.cell v).tag := by rw [ht]; rfl
    have hcar : (s'.cell (f v)).car = (s.cell v).car := by rw [hc.car, if_neg (by rw [ht]; nofun)]
    simp only [assert, ht, if_true, ok_bind, hcar]
    by_cases hi : (i : Int) < (s.cell v).car
    · simp only [hi, if_true, ok_bind]
      have he := h.iso.element v hv hbl i hi
      have hin := h.sound.inside v hv _ (owns_element hbl hi)
      have hin' := h.sound'.inside (f v) ⟨v, hv, rfl⟩ _ (owns_element (a := f v) (i := i) (by rw [hc.tag]; exact hbl) (by omega))
      simp only [c_nil] at hin hin'
      have v1 : s.Valid ((s.cell v).cdr + i) := ⟨by omega, by omega⟩
      have v2 : s'.Valid ((s'.cell (f v)).cdr + i) := ⟨by omega, by omega⟩
      simp only [fetch, deref, St.rd_ok v1, St.rd_ok v2, ok_bind]
      rcases h.sound.plain v hv hbl i hi with hp | hp | hp
      · have hpe := h.closed.element v hv hbl i hi hp
        have hce := h.iso.cell _ hpe
        rw [if_pos hp, if_pos (he.tag.trans hp), he.car, if_pos (by rw [hp]; rfl)]
        simp only [ok_bind, St.rd_ok (h.valid hpe), St.rd_ok (h.valid' hpe)]
        rw [hce.tag]
        split
        · rename_i ht
          rw [hce.cdr (by rw [ht]; rfl) (by rw [ht]; nofun), if_neg (by rw [ht]; nofun)]
          exact makeChar_sim h _
        · split
          · rename_i ht
            rw [hce.cdr (by rw [ht]; rfl) (by rw [ht]; nofun), if_neg (by rw [ht]; nofun)]
            exact makeNumber_sim h _
          · exact Sim.ok h hpe
      · have hd := he.cdr (by rw [hp]; rfl) (by rw [hp]; nofun)
        rw [if_neg (by rw [hp]; nofun)] at hd
        rw [if_neg (by rw [hp]; nofun), if_neg (by rw [he.tag, hp]; nofun)]
        simp only [ok_bind, St.rd_ok v1, St.rd_ok v2, he.tag, hp, hd]
        exact makeNumber_sim h _
      · have hd := he.cdr (by rw [hp]; rfl) (by rw [hp]; nofun)
        rw [if_neg (by rw [hp]; nofun)] at hd
        rw [if_neg (by rw [hp]; nofun), if_neg (by rw [he.tag, hp]; nofun)]
        simp only [ok_bind, St.rd_ok v1, St.rd_ok v2, he.tag, hp, hd]
        exact makeChar_sim h _
    · simp only [hi, if_false]; trivial
  · simp only [assert, ht, if_false]; trivial

theorem vectorSet_sim (h : Rel M P f s s') {v e : Int} (i : Nat) (hv : P v) (he : P e) :
    Sim M P f (vectorSet s v i e) (vectorSet s' (f v) i (f e)) := by
  have hc := h.iso.cell v hv
  have hu := h.fixed (a := c_unspecified) (by decide) (by decide)
  simp only [vectorSet, St.rd_ok (h.valid hv), St.rd_ok (h.valid' hv), ok_bind]
  rw [hc.tag]
  by_cases ht : (s.cell v).tag = .vector
  · have hbl : isBlock (s.cell v).tag := by rw [ht]; rfl
    have hcar : (s'.cell (f v)).car = (s.cell v).car := by rw [hc.car, if_neg (by rw [ht]; nofun)]
    simp only [assert, ht, if_true, ok_bind, hcar]
    by_cases hi : (i : Int) < (s.cell v).car
    · simp only [hi, if_true, ok_bind]
      have hin := h.sound.inside v hv _ (owns_element hbl hi)
      have hin' := h.sound'.inside (f v) ⟨v, hv, rfl⟩ _ (owns_element (a := f v) (i := i) (by rw [hc.tag]; exact hbl) (by omega))
      simp only [c_nil] at hin hin'
      have v1 : s.Valid ((s.cell v).cdr + i) := ⟨by omega, by omega⟩
      have v2 : s'.Valid ((s'.cell (f v)).cdr + i) := ⟨by omega, by omega⟩
      obtain ⟨a1, a2⟩ := setEntry_exact h.sound.base v1 (h.valid he)
      obtain ⟨b1, b2⟩ := setEntry_exact h.sound'.base v2 (h.valid' he)
      have hdi := direct_iso h he
      have hxi : extra s' (f e) = extra s e := by unfold extra; rw [hdi]
      rw [hdi, hxi] at b1 b2
      by_cases hd : direct s e = true
      · obtain ⟨t, t1, t2⟩ := a1 (.inr hd)
        obtain ⟨t', u1, u2⟩ := b1 (.inr hd)
        rw [if_pos hd] at t2 u2
        rw [t1, u1, t2, u2]
        exact .mk (by simp only [ok_bind]; rw [hu.2]) (h.setElem hv hbl hi (entryCell_elem h.sound he) (entryCell_iso h he)) hu.1
          fun b hb => ⟨hb, rfl⟩
      · by_cases hr : s.free + extra s e ≤ s.arena + 2
        · obtain ⟨t, t1, t2⟩ := a1 (.inl hr)
          by_cases hr' : s'.free + extra s e ≤ s'.arena + 2
          case neg =>
            rw [t1, b2 hd (by omega)]
            exact .inl ⟨rfl, fun he => by have := h.tight he; omega⟩
          obtain ⟨t', u1, u2⟩ := b1 (.inl hr')
          rw [if_neg hd] at t2 u2
          rw [t1, u1, t2, u2]
          have hx : extra s e = 1 := by unfold extra; rw [if_neg hd]
          obtain ⟨g1, g2⟩ := h.push (c := { tag := .ref, car := e, cdr := 0 }) (c' := { tag := .ref, car := f e, cdr := 0 })
            ⟨rfl, nofun, rfl, nofun, fun _ => he, nofun⟩ ⟨rfl, rfl, fun _ _ => rfl, nofun⟩ rfl (by omega) (fun _ => by omega)
          have hk1 : (s.push { tag := .ref, car := e, cdr := 0 }).cell v = s.cell v := (push_ext s _).same v (h.valid hv).2 (by simp)
          have hk2 : (s'.push { tag := .ref, car := f e, cdr := 0 }).cell (f v) = s'.cell (f v) :=
            (push_ext s' _).same (f v) (h.valid' hv).2 (by simp)
          have hel := entryCell_elem h.sound he
          have hrel := g1.setElem (v := v) (j := i) (c := entryCell s e) (c' := entryCell s' (f e)) (.inr hv) (by rw [hk1]; exact hbl)
            (by rw [hk1]; exact hi) ⟨hel.plain, fun hr => .inr (hel.ref hr)⟩
            (sameCell_mono (entryCell_iso h he) (fun hr => g2 _ (by
              rcases hel.plain with hp | hp | hp
              · exact hel.ref hp
              · rw [hp] at hr; cases hr
              · rw [hp] at hr; cases hr)) (fun hr => by
                rcases hel.plain with hp | hp | hp <;> rw [hp] at hr <;> cases hr))
          rw [g2 v hv, hk1, hk2] at hrel
          have hu' : ext f s.free s'.free c_unspecified = c_unspecified := by rw [g2 _ hu.1]; exact hu.2
          exact .mk (by simp only [ok_bind]; rw [hu']) hrel (.inr hu.1) fun b hb => ⟨.inr hb, g2 b hb⟩
        · rw [a2 hd (by omega)]; trivial
    · simp only [hi, if_false]; trivial
  · simp only [assert, ht, if_false]; trivial

end Mes.Gc
