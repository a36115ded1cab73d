import Verif.Proof.Array
namespace Mes
open Res Spec

variable {s s' : St}

/-- The run of `m` from `s` stops with the out-of-memory message, or only changes cells from `b` on, and stays inside
the arena. -/
def Grows (b : Int) (s : St) (m : Res St) : Prop :=
  m = abort ∨ ∃ s', m = ok s' ∧ Frame (b ≤ ·) s s' ∧ Room s' 0

theorem Grows.bind {b : Int} {m : Res St} {f : St → Res St} (hm : Grows b s m)
    (hf : ∀ s', Frame (b ≤ ·) s s' → Room s' 0 → Grows b s' (f s')) : Grows b s (m >>= f) := by
  rcases hm with rfl | ⟨s', rfl, h1, h2⟩
  · exact .inl rfl
  · rcases hf s' h1 h2 with h | ⟨s'', h3, h4, h5⟩
    · exact .inl (by simpa using h)
    · exact .inr ⟨s'', by simpa using h3, h1.trans h4, h5⟩

theorem makeCell_cases (h : Room s 0) (t : Tag) (a d : Int) :
    makeCell s t a d = abort ∨
    (makeCell s t a d = ok (s.free, s.push { tag := t, car := a, cdr := d }) ∧ Room s 1) := by
  by_cases hr : s.free + 1 - g_cells ≤ s.arena
  · have : Room s 1 := ⟨h.base, hr⟩
    exact .inr ⟨makeCell_ok this .., this⟩
  · left
    simp only [makeCell]
    rw [if_pos (.inr (by omega))]

theorem alloc_cases {n : Int} (h : Room s 0) (hn : 0 ≤ n) :
    alloc s n = abort ∨ (alloc s n = ok (s.free, { s with free := s.free + n }) ∧ Room s n) := by
  by_cases hr : s.free + n - g_cells ≤ s.arena
  · have h1 := h.base
    simp only [c_symbol_max, g_cells] at h1 hr
    refine .inr ⟨?_, ⟨h.base, hr⟩⟩
    simp only [alloc, g_cells]
    rw [if_neg (by omega)]
  · left
    simp only [alloc]
    rw [if_pos (.inr (by omega))]

theorem alloc_frame {n : Int} (hn : 0 ≤ n) : Ext s { s with free := s.free + n } :=
  ⟨by simp; omega, fun _ _ _ => rfl, rfl⟩

theorem setEntry_grows {b p e : Int} (h : Room s 0) (hp : s.Valid p) (he : s.Valid e) (hb : b ≤ p) :
    Grows b s (setEntry s p e) := by
  have hup : ∀ (s : St) (c : Cell), Frame (b ≤ ·) s (s.upd p c) := fun s c =>
    (upd_frame s p c).mono (fun a _ ha => by omega)
  unfold setEntry vectorEntry
  simp only [St.rd_ok he, ok_bind]
  by_cases ht : (s.cell e).tag ≠ .char ∧ (s.cell e).tag ≠ .number
  · rw [if_pos ht]
    rcases makeCell_cases h .ref e 0 with h1 | ⟨h1, h2⟩
    · exact .inl (by rw [makeRef, h1]; rfl)
    · right
      have hx := push_ext s { tag := .ref, car := e, cdr := 0 }
      refine ⟨_, ?_, (Ext.frame hx).trans (hup _ { tag := .ref, car := e, cdr := 0 }), ⟨?_, ?_⟩⟩
      · rw [makeRef, h1]
        simp only [ok_bind, St.copyCell, St.rd_ok (h2.free_valid _), St.push_cell_free, St.put_ok _ (hx.valid hp)]
      · have := h2.base; simp only [St.upd_free, St.push_free]; omega
      · have := h2.room; simp only [St.upd_free, St.push_free, St.upd_arena, St.push_arena]; omega
  · rw [if_neg ht]
    refine .inr ⟨_, ?_, hup s { s.cell e with bytes := [] }, ⟨h.base, h.room⟩⟩
    simp only [ok_bind, St.copyCell, St.rd_ok he, St.put_ok _ hp]

theorem fillVector_grows {b e : Int} : ∀ {n : Nat} {s : St} {v : Int}, Room s 0 → b ≤ v → 1 ≤ v → v + n ≤ s.free →
    s.Valid e → Grows b s (fillVector n s v e)
  | 0, s, v, hr, _, _, _, _ => .inr ⟨s, rfl, .refl .., hr⟩
  | n + 1, s, v, hr, hb, hv, hn, he => by
    unfold fillVector
    refine (setEntry_grows hr ⟨hv, by omega⟩ he hb).bind fun s' hf hr' => ?_
    have := hf.le
    exact fillVector_grows hr' (by omega) (by omega) (by omega) (hf.valid he)

theorem fillStruct_grows {b : Int} : ∀ {n : Nat} {s : St} {v p : Int} {xs : List Int}, Room s 0 → b ≤ v → 1 ≤ v →
    v + n ≤ s.free → ListOf s (fun a _ => s.Valid a) p xs → (∀ a, PairOf s p a → a < b) → Grows b s (fillStruct n s v p)
  | 0, s, v, _, _, hr, _, _, _, _, _ => .inr ⟨s, rfl, .refl .., hr⟩
  | n + 1, s, v, p, xs, hr, hb, hv, hn, hl, hlow => by
    unfold fillStruct
    cases hl with
    | nil =>
      rw [if_pos rfl]
      refine (setEntry_grows hr ⟨hv, by omega⟩ (hr.valid (by decide) (by decide)) hb).bind fun s' hf hr' => ?_
      have := hf.le
      exact fillStruct_grows hr' (by omega) (by omega) (by omega) (xs := []) .nil
        (fun a ha => by cases ha <;> exact absurd rfl ‹_›)
    | @cons p x xs hne hp ht hx hl =>
      rw [if_neg hne]
      simp only [St.rd_ok hp, ok_bind]
      refine (setEntry_grows hr ⟨hv, by omega⟩ hx hb).bind fun s' hf hr' => ?_
      have := hf.le
      have key : ∀ {q : Int} {ys : List Int}, ListOf s (fun a _ => s.Valid a) q ys → (∀ a, PairOf s q a → a < b) →
          ListOf s' (fun a _ => s'.Valid a) q ys ∧ ∀ a, PairOf s' q a → a < b := by
        intro q ys hq
        induction hq with
        | nil => exact fun _ => ⟨.nil, fun a ha => by cases ha <;> exact absurd rfl ‹_›⟩
        | @cons q y ys hne hq ht hy _ ih =>
          intro hlow
          have e := hf.same q hq.2 (by have := hlow q (.here hne); omega)
          obtain ⟨i1, i2⟩ := ih (fun a ha => hlow a (.next hne ha))
          refine ⟨.cons hne (hf.valid hq) (by rw [e]; exact ht) (by rw [e]; exact hf.valid hy) (by rw [e]; exact i1),
            fun a ha => ?_⟩
          cases ha with
          | here => exact hlow q (.here hne)
          | next _ ha => rw [e] at ha; exact i2 a ha
      obtain ⟨k1, k2⟩ := key hl (fun a ha => hlow a (.next hne ha))
      exact fillStruct_grows hr' (by omega) (by omega) (by omega) k1 k2

theorem pairOf_valid {R : Int → Int → Prop} {p a : Int} {xs : List Int} (h : ListOf s R p xs) (ha : PairOf s p a) :
    s.Valid a := by
  induction h with
  | nil => cases ha <;> exact absurd rfl ‹_›
  | cons hne hv _ _ _ ih =>
    cases ha with
    | here => exact hv
    | next _ ha => exact ih ha

end Mes
