import Verif.Spec.Heap
import Verif.Model.Data
namespace Mes
open Res Spec

namespace St
variable {s : St}

@[simp] theorem rd_ok {a : Int} (h : s.Valid a) : s.rd a = ok (s.cell a) := by simp [rd, h]
theorem car_ok {a : Int} (h : s.Valid a) : s.car a = ok (s.cell a).car := by simp [car, h]
theorem cdr_ok {a : Int} (h : s.Valid a) : s.cdr a = ok (s.cell a).cdr := by simp [cdr, h]
theorem tag_ok {a : Int} (h : s.Valid a) : s.tag a = ok (s.cell a).tag := by simp [tag, h]
theorem bytes_ok {a : Int} (h : s.Valid a) : s.bytes a = ok (s.cell a).bytes := by simp [bytes, h]

/-- The state after allocating one cell with contents `c`. -/
def push (s : St) (c : Cell) : St := { s.upd s.free c with free := s.free + 1 }

@[simp] theorem push_free (c : Cell) : (s.push c).free = s.free + 1 := rfl
@[simp] theorem push_arena (c : Cell) : (s.push c).arena = s.arena := rfl
theorem push_cell (c : Cell) (a : Int) : (s.push c).cell a = if a = s.free then c else s.cell a := rfl
@[simp] theorem push_cell_free (c : Cell) : (s.push c).cell s.free = c := by simp [push_cell]
theorem push_cell_lt (c : Cell) {a : Int} (h : a < s.free) : (s.push c).cell a = s.cell a := by
  rw [push_cell, if_neg (by omega)]
@[simp] theorem upd_free (c : Cell) (a : Int) : (s.upd a c).free = s.free := rfl
@[simp] theorem upd_arena (c : Cell) (a : Int) : (s.upd a c).arena = s.arena := rfl
theorem upd_cell (c : Cell) (a b : Int) : (s.upd a c).cell b = if b = a then c else s.cell b := rfl
@[simp] theorem upd_cell_same (c : Cell) (a : Int) : (s.upd a c).cell a = c := by simp [upd_cell]
theorem upd_cell_ne (c : Cell) {a b : Int} (h : b ≠ a) : (s.upd a c).cell b = s.cell b := by simp [upd_cell, h]
@[simp] theorem put_ok {a : Int} (c : Cell) (h : s.Valid a) : s.put a c = ok (s.upd a c) := by simp [put, h]
@[simp] theorem upd_valid {a b : Int} (c : Cell) : (s.upd a c).Valid b ↔ s.Valid b := Iff.rfl
end St

namespace Spec
variable {P Q : Int → Prop} {s s' s'' : St}

theorem Frame.refl (P : Int → Prop) (s : St) : Frame P s s := ⟨Int.le_refl _, fun _ _ _ => rfl, rfl⟩

theorem Frame.mono (h : Frame P s s') (hpq : ∀ a, a < s.free → P a → Q a) : Frame Q s s' :=
  ⟨h.le, fun a ha hq => h.same a ha (fun hp => hq (hpq a ha hp)), h.rest⟩

theorem Ext.frame (h : Ext s s') : Frame P s s' := h.mono (fun _ _ => False.elim)

theorem Frame.trans (h : Frame P s s') (h' : Frame P s' s'') : Frame P s s'' := by
  refine ⟨Int.le_trans h.le h'.le, fun a ha hp => ?_, ?_⟩
  · rw [h'.same a (Int.lt_of_lt_of_le ha h.le) hp, h.same a ha hp]
  · have h1 := h.rest; have h2 := h'.rest
    cases s; cases s'; cases s''
    simp_all

/-- A later change of cells that are new, or allowed to change. -/
theorem Frame.trans' (h : Frame P s s') (h' : Frame Q s' s'') (hq : ∀ a, a < s.free → Q a → P a) : Frame P s s'' := by
  refine ⟨Int.le_trans h.le h'.le, fun a ha hp => ?_, ?_⟩
  · rw [h'.same a (Int.lt_of_lt_of_le ha h.le) (fun hh => hp (hq a ha hh)), h.same a ha hp]
  · have h1 := h.rest; have h2 := h'.rest
    cases s; cases s'; cases s''
    simp_all

theorem Frame.valid (h : Frame P s s') {a : Int} (hv : s.Valid a) : s'.Valid a := ⟨hv.1, Int.lt_of_lt_of_le hv.2 h.le⟩

theorem Frame.arena (h : Frame P s s') : s'.arena = s.arena := by
  have := congrArg St.arena h.rest; simpa using this
theorem Frame.sp (h : Frame P s s') : s'.sp = s.sp := by
  have := congrArg St.sp h.rest; simpa using this
theorem Frame.stack (h : Frame P s s') : s'.stack = s.stack := by
  have := congrArg St.stack h.rest; simpa using this
theorem Frame.symbols (h : Frame P s s') : s'.symbols = s.symbols := by
  have := congrArg St.symbols h.rest; simpa using this
theorem Frame.maxString (h : Frame P s s') : s'.maxString = s.maxString := by
  have := congrArg St.maxString h.rest; simpa using this

theorem Room.mono {k l : Int} (h : Room s k) (hl : l ≤ k) : Room s l := ⟨h.base, by have := h.room; omega⟩

theorem Room.valid {k : Int} (h : Room s k) {a : Int} (h1 : 1 ≤ a) (h2 : a < 116) : s.Valid a :=
  ⟨h1, by have := h.base; simp only [c_symbol_max] at this; omega⟩

theorem Room.step {k : Int} (h : Room s k) (hf : Frame P s s') {l : Int} (hl : s'.free + l ≤ s.free + k) : Room s' l :=
  ⟨Int.le_trans h.base hf.le, by have := h.room; rw [hf.arena]; omega⟩

theorem push_ext (s : St) (c : Cell) : Ext s (s.push c) :=
  ⟨by simp; omega, fun a ha _ => by rw [St.push_cell_lt c ha], rfl⟩

theorem upd_frame (s : St) (a : Int) (c : Cell) : Frame (fun x => x = a) s (s.upd a c) :=
  ⟨Int.le_refl _, fun b _ hp => St.upd_cell_ne c hp, rfl⟩

theorem Room.push {k : Int} (h : Room s (k + 1)) (c : Cell) : Room (s.push c) k := h.step (push_ext s c) (by simp; omega)

end Spec

variable {s : St}

theorem makeCell_ok (h : Room s 1) (t : Tag) (a d : Int) :
    makeCell s t a d = ok (s.free, s.push { tag := t, car := a, cdr := d }) := by
  have h1 := h.base; have h2 := h.room
  simp only [c_symbol_max, g_cells] at h1 h2
  unfold makeCell
  simp only [g_cells]
  rw [if_neg (by omega)]
  rfl

theorem cons_ok (h : Room s 1) (a d : Int) : cons s a d = ok (s.free, s.push { tag := .pair, car := a, cdr := d }) :=
  makeCell_ok h ..
theorem makeNumber_ok (h : Room s 1) (n : Int) :
    makeNumber s n = ok (s.free, s.push { tag := .number, car := 0, cdr := n }) := makeCell_ok h ..
theorem makeChar_ok (h : Room s 1) (n : Int) :
    makeChar s n = ok (s.free, s.push { tag := .char, car := 0, cdr := toInt32 n }) := makeCell_ok h ..

theorem toInt32_id {n : Int} (h1 : -2147483648 ≤ n) (h2 : n ≤ 2147483647) : toInt32 n = n := by
  unfold toInt32; omega
theorem makeRef_ok (h : Room s 1) (n : Int) :
    makeRef s n = ok (s.free, s.push { tag := .ref, car := n, cdr := 0 }) := makeCell_ok h ..

theorem Spec.Room.free_valid {k : Int} (h : Room s k) (c : Cell) : (s.push c).Valid s.free :=
  ⟨by have := h.base; simp only [c_symbol_max] at this; omega, by simp; omega⟩

theorem Spec.Room.push_isNum {k : Int} (h : Room s k) (n : Int) :
    IsNum (s.push { tag := .number, car := 0, cdr := n }) s.free n :=
  ⟨h.free_valid _, by simp, by simp⟩

namespace Spec

variable {P : Int → Prop} {s s' : St} {α : Type} {R R' : Int → α → Prop}

theorem IsNum.frame {p n : Int} (h : IsNum s p n) (hf : Frame P s s') (hp : ¬ P p) : IsNum s' p n :=
  ⟨hf.valid h.valid, by rw [hf.same p h.valid.2 hp]; exact h.tag, by rw [hf.same p h.valid.2 hp]; exact h.value⟩
theorem IsNum.ext {p n : Int} (h : IsNum s p n) (hf : Ext s s') : IsNum s' p n := h.frame hf id
theorem IsChar.frame {p n : Int} (h : IsChar s p n) (hf : Frame P s s') (hp : ¬ P p) : IsChar s' p n :=
  ⟨hf.valid h.valid, by rw [hf.same p h.valid.2 hp]; exact h.tag, by rw [hf.same p h.valid.2 hp]; exact h.value⟩
theorem IsChar.ext {p n : Int} (h : IsChar s p n) (hf : Ext s s') : IsChar s' p n := h.frame hf id

theorem ListOf.mono {p : Int} {xs : List α} (h : ListOf s R p xs) (hr : ∀ a x, R a x → R' a x) : ListOf s R' p xs := by
  induction h with
  | nil => exact .nil
  | cons hne hv ht hx _ ih => exact .cons hne hv ht (hr _ _ hx) ih

theorem ListOf.ext {p : Int} {xs : List α} (h : ListOf s R p xs) (hf : Ext s s') (hr : ∀ a x, R a x → R' a x) :
    ListOf s' R' p xs := by
  induction h with
  | nil => exact .nil
  | @cons p x xs hne hv ht hx _ ih =>
    have e := hf.same p hv.2 id
    refine .cons hne (hf.valid hv) (by rw [e]; exact ht) (by rw [e]; exact hr _ _ hx) (by rw [e]; exact ih)

theorem IsList.ext {p : Int} {xs : List Int} (h : IsList s p xs) (hf : Ext s s') : IsList s' p xs :=
  ListOf.ext h hf (fun _ _ => id)
theorem Numbers.ext {p : Int} {xs : List Int} (h : Numbers s p xs) (hf : Ext s s') : Numbers s' p xs :=
  ListOf.ext h hf (fun _ _ h => h.ext hf)

theorem ListOf.nil_iff {xs : List α} : ListOf s R c_nil xs ↔ xs = [] := by
  constructor
  · intro h; cases h with
    | nil => rfl
    | cons hne => exact absurd rfl hne
  · rintro rfl; exact .nil

end Spec
end Mes
