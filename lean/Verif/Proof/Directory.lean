import Verif.Spec.Directory
import Verif.Proof.Exec
/- Lemmas about `readdir`. -/
namespace Mes.C
open Res Spec

theorem littleEndian_length : ∀ (n v : Nat), (littleEndian n v).length = n
  | 0, _ => rfl
  | n + 1, v => by rw [littleEndian, List.length_cons, littleEndian_length n]

theorem DirRecord.bytes_length (w : Nat) (r : DirRecord) : (r.bytes w).length = r.length w := by
  simp only [DirRecord.bytes, List.length_append, littleEndian_length, List.length_cons, DirRecord.length]
  omega

theorem rdLe_ok {m : Mem} : ∀ (n v a : Nat), v < 256 ^ n → At m a (littleEndian n v) → rdLe m n a = ok v
  | 0, v, a, h, _ => by
    rw [Nat.pow_zero] at h
    have : v = 0 := by omega
    subst this
    rfl
  | n + 1, v, a, h, g => by
    have h0 : m[a]? = some (UInt8.ofNat (v % 256)) := g 0 (by simp [littleEndian])
    have h1 : At m (a + 1) (littleEndian n (v / 256)) := fun i hi => by
      have := g (i + 1) (by rw [littleEndian, List.length_cons]; omega)
      rw [Nat.add_assoc, Nat.add_comm 1 i, this]
      rfl
    have h2 : v / 256 < 256 ^ n := by
      rw [Nat.div_lt_iff_lt_mul (by omega)]
      rwa [Nat.pow_succ] at h
    have h3 : (UInt8.ofNat (v % 256)).toNat = v % 256 := by
      rw [UInt8.toNat_ofNat']
      omega
    rw [rdLe, rd_ok h0]
    simp only [ok_bind, rdLe_ok n _ _ h2 h1, h3]
    congr 1
    omega

theorem at_left {m a b : List UInt8} {i : Nat} (h : At m i (a ++ b)) : At m i a := fun k hk => by
  rw [h k (by rw [List.length_append]; omega), List.getElem?_append_left hk]

theorem at_right {m a b : List UInt8} {i : Nat} (h : At m i (a ++ b)) : At m (i + a.length) b := fun k hk => by
  rw [Nat.add_assoc, h (a.length + k) (by rw [List.length_append]; omega), List.getElem?_append_right (by omega), Nat.add_sub_cancel_left]

theorem dirEntry_ok {w : Nat} {d : Dir} {r : DirRecord} (hr : r.Fits w) (h : At d.data d.offset (r.bytes w)) :
    dirEntry w d = ok (d.offset, r.ino, { d with offset := d.offset + r.length w, filepos := r.off }) := by
  have h1 := at_left h
  have h2 := at_right h
  have h3 := at_left h2
  have h4 := at_left (at_right h2)
  rw [littleEndian_length, littleEndian_length] at h4
  rw [littleEndian_length] at h3
  unfold dirEntry
  rw [show d.offset + 2 * w = d.offset + w + w by omega, rdLe_ok 2 _ _ hr.length h4, rdLe_ok w _ _ hr.off h3, rdLe_ok w _ _ hr.ino h1]
  rfl

/-- The name of an entry. -/
theorem name_ok {w p : Nat} {m : Mem} {r : DirRecord} (hr : r.Fits w) (h : At m p (r.bytes w)) : CStr m (p + 2 * w + 2) r.name := by
  have h2 := at_right (at_right (at_right h))
  simp only [littleEndian_length] at h2
  rw [show p + w + w + 2 = p + 2 * w + 2 by omega, show r.name ++ 0 :: r.pad = (r.name ++ [0]) ++ r.pad by simp] at h2
  exact ⟨at_left h2, hr.name⟩

theorem readdirLoop_ok (w : Nat) (saved : Int) : ∀ (fuel : Nat) (as : List DirAnswer) (errno : Int) (d : Dir) (items : List DirItem),
    DirStream w d as items → d.size - d.offset + answerBytes as < fuel → DirGives w saved items (readdirLoop w saved fuel as errno d)
  | 0, _, _, _, _, _, h => absurd h (by omega)
  | fuel + 1, as, errno, d, items, ⟨rs, blocks, hi, ha, hf, hat, hsz, hle, hb⟩, h => by
    rw [readdirLoop.eq_def]
    dsimp only
    cases rs with
    | cons r rs =>
      rw [List.flatMap_cons] at hat hsz
      rw [List.length_append, DirRecord.bytes_length] at hsz
      have hpos : 0 < r.length w := by unfold DirRecord.length; omega
      have hr := hf r (by simp)
      rw [if_neg (by omega), dirEntry_ok hr (at_left hat)]
      have hat' := at_right hat
      rw [DirRecord.bytes_length] at hat'
      have hs : DirStream w { d with offset := d.offset + r.length w, filepos := r.off } as (rs.map .entry ++ blocks.flatMap DirBlock.items) :=
        ⟨rs, blocks, rfl, ha, fun x hx => hf x (by simp [hx]), hat', by show d.offset + r.length w + _ = d.size; omega, hle, hb⟩
      subst hi
      simp only [ok_bind, List.map_cons, List.cons_append]
      by_cases h0 : r.ino = 0
      · rw [if_pos h0]
        have := readdirLoop_ok w saved fuel as errno _ _ hs (by show d.size - (d.offset + r.length w) + _ < fuel; omega)
        unfold DirGives at *
        rwa [List.dropWhile_cons, if_pos (by simp [DirItem.deleted, h0])]
      · rw [if_neg h0]
        unfold DirGives
        rw [List.dropWhile_cons, if_neg (by simp [DirItem.deleted, h0])]
        exact ⟨_, _, _, _, rfl, hr, at_left hat, hs⟩
    | nil =>
      simp only [List.flatMap_nil, List.length_nil] at hsz
      rw [if_pos (by omega)]
      simp only [List.map_nil, List.nil_append] at hi
      cases blocks with
      | nil =>
        subst hi ha
        exact ⟨d, rfl, [], [], rfl, rfl, by simp, hat, by simpa using hsz, hle, by simp⟩
      | cons b blocks =>
        subst hi ha
        cases b with
        | failure e =>
          exact ⟨d, _, rfl, [], blocks, rfl, rfl, by simp, hat, by simpa using hsz, hle, fun b hx => hb b (by simp [hx])⟩
        | entries rs =>
          obtain ⟨g1, g2, g3⟩ := hb (.entries rs) (by simp)
          obtain ⟨r, rs, rfl⟩ := List.exists_cons_of_ne_nil g1
          have hr := g2 r (by simp)
          have hpos : 0 < r.length w := by unfold DirRecord.length; omega
          have hbs : (r :: rs).flatMap (DirRecord.bytes w) = r.bytes w ++ rs.flatMap (DirRecord.bytes w) := rfl
          have hl : ((r :: rs).flatMap (DirRecord.bytes w)).length = r.length w + (rs.flatMap (DirRecord.bytes w)).length := by
            rw [hbs, List.length_append, DirRecord.bytes_length]
          simp only [List.map_cons, DirBlock.answer, answerBytes] at h ⊢
          generalize hB : (r :: rs).flatMap (DirRecord.bytes w) = B at *
          rw [if_neg (by intro e; rw [e] at hl; simp only [List.length_nil] at hl; omega), ubUnless, if_pos g3]
          have hat0 : At (B ++ d.data.drop B.length) 0 B := fun i hi => by
            rw [Nat.zero_add, List.getElem?_append_left hi]
          have hlen : (B ++ d.data.drop B.length).length = d.data.length := by
            rw [List.length_append, List.length_drop]; omega
          generalize B ++ d.data.drop B.length = D at *
          rw [hbs] at hat0
          have hat' := at_right hat0
          rw [DirRecord.bytes_length] at hat'
          rw [ok_bind, dirEntry_ok (r := r) hr (at_left hat0)]
          have hs : DirStream w { data := D, size := B.length, offset := 0 + r.length w, filepos := r.off } (blocks.map (DirBlock.answer w))
              (rs.map .entry ++ blocks.flatMap DirBlock.items) :=
            ⟨rs, blocks, rfl, rfl, fun x hx => g2 x (by simp [hx]), hat', by show 0 + r.length w + _ = B.length; omega, by show B.length ≤ D.length; omega,
              fun b hx => by show b.Ok w D.length; rw [hlen]; exact hb b (by simp [hx])⟩
          simp only [ok_bind, List.flatMap_cons, DirBlock.items, List.map_cons, List.cons_append]
          by_cases h0 : r.ino = 0
          · rw [if_pos h0]
            have := readdirLoop_ok w saved fuel _ 0 _ _ hs (by show B.length - (0 + r.length w) + _ < fuel; omega)
            unfold DirGives at *
            rwa [List.dropWhile_cons, if_pos (by simp [DirItem.deleted, h0])]
          · rw [if_neg h0]
            unfold DirGives
            rw [List.dropWhile_cons, if_neg (by simp [DirItem.deleted, h0])]
            exact ⟨_, _, _, _, rfl, hr, at_left hat0, hs⟩

theorem readdir_ok {w : Nat} {errno : Int} {as : List DirAnswer} {d : Dir} {items : List DirItem} (h : DirStream w d as items) :
    DirGives w errno items (readdir w as errno d) := by
  have hle : d.size ≤ d.data.length := by
    obtain ⟨-, -, -, -, -, -, -, h, -⟩ := h
    exact h
  exact readdirLoop_ok w errno _ _ _ _ _ h (by omega)

/-- The names before the first error. -/
theorem listDir_ok (w : Nat) : ∀ (rs : List DirRecord) (rest : List DirItem) (fuel : Nat) (as : List DirAnswer) (errno : Int) (d : Dir),
    DirStream w d as (rs.map .entry ++ rest) → rs.length < fuel → (rest = [] ∨ ∃ e t, rest = .failure e :: t) →
    ∃ errno', listDir w fuel as errno d = ok (fileNames rs, errno') ∧ ∀ e t, rest = .failure e :: t → errno' = e := by
  intro rs
  induction hn : rs.length using Nat.strongRecOn generalizing rs with
  | _ n ih =>
    intro rest fuel as errno d hs hfu hr
    subst hn
    cases fuel with
    | zero => omega
    | succ fuel =>
    have hg := readdir_ok (errno := errno) hs
    have key : (∃ r rs', rs.dropWhile (fun r => decide (r.ino = 0)) = r :: rs' ∧ r.ino ≠ 0) ∨ rs.dropWhile (fun r => decide (r.ino = 0)) = [] := by
      cases e : rs.dropWhile (fun r => decide (r.ino = 0)) with
      | nil => exact .inr rfl
      | cons r rs' =>
        have := List.head_dropWhile_not (fun r : DirRecord => decide (r.ino = 0)) (by rw [e]; simp : rs.dropWhile (fun r => decide (r.ino = 0)) ≠ [])
        simp only [e, List.head_cons] at this
        exact .inl ⟨r, rs', rfl, of_decide_eq_false this⟩
    have hdw : ∀ l : List DirRecord, (l.map DirItem.entry ++ rest).dropWhile DirItem.deleted =
        if l.dropWhile (fun r => decide (r.ino = 0)) = [] then rest.dropWhile DirItem.deleted
        else (l.dropWhile (fun r => decide (r.ino = 0))).map DirItem.entry ++ rest := by
      intro l
      induction l with
      | nil => simp
      | cons r l ih' =>
        by_cases h0 : r.ino = 0
        · simp [DirItem.deleted, h0, ih']
        · simp [DirItem.deleted, h0]
    have hnames : ∀ l : List DirRecord, fileNames l = fileNames (l.dropWhile (fun r => decide (r.ino = 0))) := by
      intro l
      induction l with
      | nil => rfl
      | cons r l ih' =>
        by_cases h0 : r.ino = 0
        · rw [List.dropWhile_cons, if_pos (by simp [h0]), ← ih']
          simp [fileNames, h0]
        · rw [List.dropWhile_cons, if_neg (by simp [h0])]
    rw [listDir]
    unfold DirGives at hg
    rw [hdw rs] at hg
    rcases key with ⟨r, rs', e, h0⟩ | e
    · rw [e, if_neg (by simp), List.map_cons, List.cons_append] at hg
      obtain ⟨p, d', as', errno', e1, hf, hat, hs'⟩ := hg
      have hlen : rs'.length < rs.length := by
        have := (List.dropWhile_sublist (fun r : DirRecord => decide (r.ino = 0)) (l := rs)).length_le
        rw [e, List.length_cons] at this
        omega
      obtain ⟨errno2, e2, e3⟩ := ih rs'.length hlen rs' rfl rest fuel as' errno' d' hs' (by omega) hr
      have c := name_ok hf hat
      have hl : r.name.length < d'.data.length + 1 := by have := c.lt; omega
      refine ⟨errno2, ?_, e3⟩
      rw [e1]
      simp only [ok_bind, cText_ok _ _ _ c hl, e2]
      rw [hnames rs, e]
      simp [fileNames, h0]
    · rw [e, if_pos rfl] at hg
      have hn0 : fileNames rs = [] := by rw [hnames rs, e]; rfl
      rcases hr with rfl | ⟨x, t, rfl⟩
      · obtain ⟨d', e1, -⟩ := hg
        refine ⟨errno, ?_, by simp⟩
        rw [e1, hn0]
        rfl
      · rw [List.dropWhile_cons, if_neg (by simp [DirItem.deleted])] at hg
        obtain ⟨d', as', e1, -⟩ := hg
        refine ⟨x, ?_, fun e t h => by cases h; rfl⟩
        rw [e1, hn0]
        rfl

end Mes.C
