import Verif.Spec.Blocks
import Verif.Proof.CString
/-
Lemmas about the allocator.
-/
namespace Mes.C
open Res Spec

variable {s s' : Proc} {bs : List Block} {m m' : Mem}

theorem resize_length (m : Mem) (n : Nat) : (resize m n).length = n := by
  unfold resize; simp; omega

theorem resize_at {n a : Nat} {l : List Byte} (h : At m a l) (hn : a + l.length ≤ n) : At (resize m n) a l := by
  intro i hi
  have hlt := h.lt hi
  rw [← h i hi]
  unfold resize
  rw [List.getElem?_append_left (by simp; omega), List.getElem?_take, if_pos (by omega)]

theorem pageEnd_le {page : Nat} (h : 0 < page) (n : Nat) : n ≤ pageEnd page n := by
  unfold pageEnd
  have h1 := Nat.div_add_mod (n + (page - 1)) page
  have h2 := Nat.mod_lt (n + (page - 1)) h
  rw [Nat.mul_comm] at h1
  omega

/-- The address from which on memory is free. -/
def Proc.next (s : Proc) : Nat := if s.cur = 0 then s.top else s.cur

theorem brk_zero (h : 0 < s.start) : brk s 0 = ((s.top : Int), s) := by
  unfold brk; rw [if_neg (by omega)]

theorem slice_at (m : Mem) {a n : Nat} (h : a + n ≤ m.length) : At m a (slice m a n) := by
  intro i hi
  rw [getElem?_slice, if_pos (by rw [length_slice m a n h] at hi; exact hi)]

/-- The state after `malloc`. -/
def Proc.after (s : Proc) (p size : Nat) : Proc :=
  { s with top := p + size, mem := resize s.mem (pageEnd s.page (p + size)), cur := p + size }

theorem malloc_eq {size : Nat} (hg : Good s bs) (hr : s.next + size + 7 ≤ s.limit) :
    ∃ p, s.next ≤ p ∧ p ≤ s.next + 7 ∧ 8 ∣ p ∧ malloc s size = (p, s.after p size) := by
  have h1 := hg.start
  have h2 := hg.limit
  have hnext : s.start ≤ s.next := by
    unfold Proc.next
    rcases hg.cur with ⟨h, rfl⟩ | ⟨h, -, h'⟩
    · rw [if_pos h]; exact h1.2
    · rw [if_neg (by omega)]; exact h
  have hcur : (if s.cur = 0 then (brk s 0).1.toNat else s.cur) = s.next := by
    unfold Proc.next; rw [brk_zero h1.1]; rfl
  obtain ⟨p, hp⟩ : ∃ p, p = (s.next + alignment - 1) % 2 ^ 64 / alignment * alignment := ⟨_, rfl⟩
  have hpv : s.next ≤ p ∧ p ≤ s.next + 7 ∧ 8 ∣ p := by
    subst hp
    unfold alignment
    rw [Nat.mod_eq_of_lt (by omega)]
    exact ⟨by omega, by omega, ⟨_, Nat.mul_comm _ _⟩⟩
  have hps : (p + size) % 2 ^ 64 = p + size := Nat.mod_eq_of_lt (by omega)
  have hbrk : brk s (p + size) = (((p + size : Nat) : Int), { s with top := p + size, mem := resize s.mem (pageEnd s.page (p + size)) }) := by
    unfold brk; rw [if_pos (by omega)]
  refine ⟨p, hpv.1, hpv.2.1, hpv.2.2, ?_⟩
  unfold malloc
  simp only [hcur]
  rw [← hp, hps, hbrk]
  simp only
  rw [if_neg (by omega)]
  rfl

theorem malloc_ok {size : Nat} (hg : Good s bs) (hr : s.next + size + 7 ≤ s.limit) :
    ∃ p s' c, malloc s size = (p, s') ∧ c.length = size ∧ Good s' ((p, c) :: bs) ∧ (∀ b ∈ bs, b.1 + b.2.length ≤ p) ∧
      0 < p ∧ s'.next ≤ s.next + size + 7 ∧ s'.limit = s.limit ∧ p + size ≤ s'.mem.length ∧ s'.cur = p + size := by
  have h1 := hg.start
  have h2 := hg.limit
  have h3 := hg.pages
  have hnext : s.start ≤ s.next ∧ ∀ b ∈ bs, b.1 + b.2.length ≤ s.next := by
    unfold Proc.next
    rcases hg.cur with ⟨h, rfl⟩ | ⟨h, -, h'⟩
    · rw [if_pos h]; exact ⟨h1.2, by simp⟩
    · rw [if_neg (by omega)]; exact ⟨h, h'⟩
  obtain ⟨p, hp1, hp2, hp3, e⟩ := malloc_eq hg hr
  have hl := resize_length s.mem (pageEnd s.page (p + size))
  have hpe := pageEnd_le h3.1 (p + size)
  have hlen := length_slice (resize s.mem (pageEnd s.page (p + size))) p size (by omega)
  refine ⟨p, s.after p size, slice (resize s.mem (pageEnd s.page (p + size))) p size, e, hlen, ?_,
    fun b hb => Nat.le_trans (hnext.2 b hb) hp1, by omega, ?_, rfl, by rw [Proc.after, hl]; omega, rfl⟩
  · unfold Proc.after
    refine ⟨⟨?_, ?_, ?_, ?_⟩, ⟨h1.1, by simp only; omega⟩, ⟨by simp only; omega, h2.2⟩, ⟨h3.1, hl⟩, .inr ⟨by simp only; omega, Nat.le_refl _, ?_⟩⟩
    · intro b hb
      rcases List.mem_cons.1 hb with rfl | hb
      · exact hp3
      · exact hg.has.aligned b hb
    · refine List.pairwise_cons.2 ⟨fun b hb => .inr ?_, hg.has.apart⟩
      have := hnext.2 b hb; simp only; omega
    · intro b hb
      rcases List.mem_cons.1 hb with rfl | hb
      · exact ⟨by simp only; omega, by simp only; omega⟩
      · have := hnext.2 b hb; have := (hg.has.below b hb).1; exact ⟨by simp only; omega, by simp only; omega⟩
    · intro b hb
      rcases List.mem_cons.1 hb with rfl | hb
      · exact slice_at (resize s.mem (pageEnd s.page (p + size))) (by omega)
      · exact resize_at (hg.has.contents b hb) (by have := hnext.2 b hb; omega)
    · intro b hb
      rcases List.mem_cons.1 hb with rfl | hb
      · simp only; omega
      · have := hnext.2 b hb; simp only; omega
  · have : (s.after p size).next = p + size := by
      unfold Proc.next Proc.after
      simp only
      rw [if_neg (by omega)]
    omega

theorem at_of_same {a : Nat} {l : List Byte} (h : At m a l) (hs : ∀ i, i < l.length → m'[a + i]? = m[a + i]?) : At m' a l :=
  fun i hi => (hs i hi).trans (h i hi)

/-- Bytes of one block change. -/
theorem _root_.Mes.Spec.Good.write {pre post : List Block} {p : Nat} {c c' : List Byte} (hg : Good s (pre ++ (p, c) :: post)) (hl : m'.length = s.mem.length)
    (hc : c'.length = c.length) (hin : At m' p c') (hout : ∀ a, a < p ∨ p + c.length ≤ a → a < s.cur → m'[a]? = s.mem[a]?) :
    Good { s with mem := m' } (pre ++ (p, c') :: post) := by
  obtain ⟨⟨g1, g2, g3, g4⟩, g5, g6, g8, g7⟩ := hg
  have sub : ∀ b, b ∈ pre ++ (p, c') :: post → b = (p, c') ∨ b ∈ pre ++ (p, c) :: post ∧ Disjoint b.1 b.2.length p c.length := by
    intro b hb
    rw [List.pairwise_append] at g2
    rcases List.mem_append.1 hb with hb | hb
    · exact .inr ⟨List.mem_append_left _ hb, g2.2.2 b hb (p, c) (by simp)⟩
    · rcases List.mem_cons.1 hb with rfl | hb
      · exact .inl rfl
      · exact .inr ⟨List.mem_append_right _ (List.mem_cons_of_mem _ hb), ((List.pairwise_cons.1 g2.2.1).1 b hb).symm⟩
  have hpc : (p, c) ∈ pre ++ (p, c) :: post := by simp
  refine ⟨⟨?_, ?_, ?_, ?_⟩, g5, g6, ⟨g8.1, hl.trans g8.2⟩, ?_⟩
  · intro b hb
    rcases sub b hb with rfl | ⟨hb, -⟩
    · exact g1 (p, c) hpc
    · exact g1 b hb
  · rw [List.pairwise_append, List.pairwise_cons] at g2 ⊢
    refine ⟨g2.1, ⟨fun b hb => by rw [hc]; exact g2.2.1.1 b hb, g2.2.1.2⟩, fun a ha b hb => ?_⟩
    rcases List.mem_cons.1 hb with rfl | hb
    · rw [hc]; exact g2.2.2 a ha (p, c) (by simp)
    · exact g2.2.2 a ha b (by simp [hb])
  · intro b hb
    rcases sub b hb with rfl | ⟨hb, -⟩
    · rw [hc]; exact g3 (p, c) hpc
    · exact g3 b hb
  · intro b hb
    rcases sub b hb with rfl | ⟨hb, hd⟩
    · exact hin
    · refine at_of_same (g4 b hb) fun i hi => hout _ (by unfold Disjoint at hd; omega) ?_
      rcases g7 with ⟨-, h⟩ | ⟨-, -, h3⟩
      · simp at h
      · have := h3 b hb; omega
  · rcases g7 with ⟨-, h⟩ | ⟨h1, h2, h3⟩
    · simp at h
    · refine .inr ⟨h1, h2, fun b hb => ?_⟩
      rcases sub b hb with rfl | ⟨hb, -⟩
      · rw [hc]; exact h3 (p, c) hpc
      · exact h3 b hb

/-- A copy from below: what is read before it is overwritten. -/
theorem memcpyLoop_up (n : Nat) : ∀ (m : Mem) (d s : Nat), s ≤ d → d + n ≤ m.length →
    ∃ m', memcpyLoop m d s n = ok m' ∧ m'.length = m.length ∧ (∀ i, i < d ∨ d + n ≤ i → m'[i]? = m[i]?) ∧
      ∀ i, i < n → s + i < d → m'[d + i]? = m[s + i]? := by
  induction n with
  | zero => intro m d s _ _; exact ⟨m, rfl, rfl, fun _ _ => rfl, fun i hi => by omega⟩
  | succ n ih =>
    intro m d s hs hd
    obtain ⟨b, hb⟩ := exists_of_lt (m := m) (a := s) (by omega)
    obtain ⟨m', e1, e2, e3, e4⟩ := ih (m.set d b) (d + 1) (s + 1) (by omega) (by simp; omega)
    refine ⟨m', ?_, by simpa using e2, fun i hi => ?_, fun i hi hi' => ?_⟩
    · simp only [memcpyLoop, rd_ok hb, ok_bind, wr_ok b (by omega : d < m.length)]; exact e1
    · rw [e3 i (by omega), getElem?_set' _ _ _ _ (by omega), if_neg (by omega)]
    · cases i with
      | zero => rw [Nat.add_zero, Nat.add_zero, e3 d (by omega), getElem?_set' _ _ _ _ (by omega), if_pos rfl, hb]
      | succ i =>
        have := e4 i (by omega) (by omega)
        rw [show d + (i + 1) = d + 1 + i by omega, this, getElem?_set' _ _ _ _ (by omega), if_neg (by omega)]
        congr 1; omega

theorem calloc_ok {k n : Nat} (hg : Good s bs) (hr : s.next + k * n + 7 ≤ s.limit) :
    ∃ p s', calloc s k n = ok (p, s') ∧ Good s' ((p, List.replicate (k * n) 0) :: bs) ∧ s'.next ≤ s.next + k * n + 7 ∧ s'.limit = s.limit := by
  have h2 := hg.limit
  have hm : k * n % 2 ^ 64 = k * n := Nat.mod_eq_of_lt (by omega)
  obtain ⟨p, s1, c, e1, e2, e3, e4, e5, e6, e7, e8, e9⟩ := malloc_ok hg hr
  obtain ⟨m', f1, f2, f3⟩ := memsetLoop_ok 0 (k * n) s1.mem p (by omega)
  refine ⟨p, { s1 with mem := m' }, ?_, ?_, ?_, e7⟩
  · unfold calloc
    simp only [hm, e1]
    unfold memset
    rw [f1]
    rfl
  · refine Spec.Good.write (pre := []) e3 f2 (by simp [e2]) (fun i hi => ?_) fun a ha _ => ?_
    · rw [List.length_replicate] at hi
      rw [f3, if_pos (by omega), List.getElem?_replicate, if_pos hi]; rfl
    · rw [f3, if_neg (by omega)]
  · unfold Proc.next at e6 ⊢
    simp only at e6 ⊢
    rw [if_neg (by omega)] at e6 ⊢
    exact e6

theorem realloc_ok {n p0 : Nat} {old : List Byte} (hg : Good s bs) (hb : (p0, old) ∈ bs) (hr : s.next + n + 7 ≤ s.limit) :
    ∃ p s' c, realloc s p0 n = ok (p, s') ∧ c.length = n ∧ (∀ j, j < old.length → j < n → c[j]? = old[j]?) ∧ Good s' ((p, c) :: bs) ∧
      s'.next ≤ s.next + n + 7 ∧ s'.limit = s.limit := by
  obtain ⟨p, s1, c, e1, e2, e3, e4, e5, e6, e7, e8, e9⟩ := malloc_ok hg hr
  have hp0 := e4 _ hb
  have hs0 := (hg.has.below _ hb).1
  have hst := hg.start
  simp only at hp0 hs0
  obtain ⟨m', f1, f2, f3, f4⟩ := memcpyLoop_up n s1.mem p p0 (by omega) (by omega)
  refine ⟨p, { s1 with mem := m' }, slice m' p n, ?_, length_slice _ _ _ (by omega), fun j hj hj' => ?_, ?_, ?_, e7⟩
  · unfold realloc
    simp only [e1]
    rw [if_pos (by omega)]
    unfold memcpy
    rw [f1]
    rfl
  · rw [getElem?_slice, if_pos hj', f4 j hj' (by omega)]
    exact e3.has.contents (p0, old) (List.mem_cons_of_mem _ hb) j hj
  · refine Spec.Good.write (pre := []) e3 f2 ?_ (slice_at _ (by omega)) fun a ha _ => f3 a (by omega)
    rw [length_slice _ _ _ (by omega), e2]
  · unfold Proc.next at e6 ⊢
    simp only at e6 ⊢
    rw [if_neg (by omega)] at e6 ⊢
    exact e6

theorem _root_.Mes.Spec.Good.mem_le (hg : Good s bs) : s.top ≤ s.mem.length := by
  have := pageEnd_le hg.pages.1 s.top; have := hg.pages.2; omega

theorem store_ok {pre post : List Block} {p k : Nat} {c : List Byte} {b : Byte} (hg : Good s (pre ++ (p, c) :: post)) (hk : k < c.length) :
    ∃ s', store s (p + k) b = ok s' ∧ Good s' (pre ++ (p, c.set k b) :: post) ∧ s'.next = s.next ∧ s'.limit = s.limit := by
  have hb := hg.has.below (p, c) (by simp)
  simp only at hb
  have hm := hg.mem_le
  have hc := hg.has.contents (p, c) (by simp)
  refine ⟨{ s with mem := s.mem.set (p + k) b }, ?_, ?_, ?_, rfl⟩
  · unfold store; rw [wr_ok _ (by omega)]; rfl
  · refine hg.write (by simp) (by simp) (fun i hi => ?_) fun a ha _ => ?_
    · rw [getElem?_set' _ _ _ _ (by omega), List.getElem?_set]
      by_cases e : k = i
      · subst e; simp [hk]
      · rw [if_neg (by omega), if_neg e]
        exact hc i (by simpa using hi)
    · rw [getElem?_set' _ _ _ _ (by omega), if_neg (by omega)]
  · simp [Proc.next]

theorem serveAll_ok : ∀ (rs : List Request) {s : Proc} {bs : List Block}, Good s bs → Legal (bs.map fun b => b.2.length) rs →
    s.next + (rs.map Request.need).sum ≤ s.limit →
    ∃ s' bs', serveAll s (bs.map (·.1)) rs = ok (s', bs'.map (·.1)) ∧ Good s' bs' ∧ Effects (bs.map (·.2)) rs (bs'.map (·.2))
  | [], s, bs, hg, _, _ => ⟨s, bs, rfl, hg, .nil⟩
  | .malloc n :: rs, s, bs, hg, hl, hr => by
    simp only [List.map_cons, List.sum_cons, Request.need] at hr
    obtain ⟨p, s1, c, e1, e2, e3, e4, e5, e6, e7, e8, e9⟩ := malloc_ok (size := n) hg (by omega)
    obtain ⟨s', bs', f1, f2, f3⟩ := serveAll_ok rs e3 (by simpa [e2, Legal] using hl) (by rw [e7]; omega)
    exact ⟨s', bs', by simp only [serveAll, serve, e1, ok_bind]; exact f1, f2, .cons (.malloc e2) f3⟩
  | .calloc k n :: rs, s, bs, hg, hl, hr => by
    simp only [List.map_cons, List.sum_cons, Request.need] at hr
    obtain ⟨p, s1, e1, e3, e6, e7⟩ := calloc_ok (k := k) (n := n) hg (by omega)
    obtain ⟨s', bs', f1, f2, f3⟩ := serveAll_ok rs e3 (by simpa [Legal] using hl) (by rw [e7]; omega)
    exact ⟨s', bs', by simp only [serveAll, serve, e1, ok_bind]; exact f1, f2, .cons .calloc f3⟩
  | .realloc i n :: rs, s, bs, hg, hl, hr => by
    simp only [List.map_cons, List.sum_cons, Request.need] at hr
    obtain ⟨hi, hl⟩ := hl
    rw [List.length_map] at hi
    have hb : bs[i] ∈ bs := List.getElem_mem hi
    have hgd : (bs.map (·.1)).getD i 0 = bs[i].1 := by simp [List.getD, hi]
    obtain ⟨p, s1, c, e1, e2, e3, e4, e6, e7⟩ := realloc_ok (n := n) (p0 := bs[i].1) (old := bs[i].2) hg hb (by omega)
    obtain ⟨s', bs', f1, f2, f3⟩ := serveAll_ok rs e4 (by simpa [e2] using hl) (by rw [e7]; omega)
    exact ⟨s', bs', by simp only [serveAll, serve, hgd, e1, ok_bind]; exact f1, f2, .cons (.realloc (old := bs[i].2) (by simp [hi]) e2 e3) f3⟩
  | .store i k b :: rs, s, bs, hg, hl, hr => by
    simp only [List.map_cons, List.sum_cons, Request.need, Nat.zero_add] at hr
    obtain ⟨⟨l, hi, hk⟩, hl⟩ := hl
    have hi' : i < bs.length := by simpa using (List.getElem?_eq_some_iff.1 hi).1
    have hgd : (bs.map (·.1)).getD i 0 = bs[i].1 := by simp [List.getD, hi']
    have hkl : k < bs[i].2.length := by simp [hi'] at hi; omega
    have hsplit : bs = bs.take i ++ (bs[i].1, bs[i].2) :: bs.drop (i + 1) := by
      rw [show (bs[i].1, bs[i].2) = bs[i] from rfl, ← List.drop_eq_getElem_cons hi', List.take_append_drop]
    obtain ⟨s1, e1, e2, e3, e4⟩ := store_ok (b := b) (hsplit ▸ hg) hkl
    have hset : bs.take i ++ (bs[i].1, bs[i].2.set k b) :: bs.drop (i + 1) = bs.set i (bs[i].1, bs[i].2.set k b) := by
      generalize bs[i].2.set k b = x
      rw [List.set_eq_take_append_cons_drop, if_pos hi']
    rw [hset] at e2
    have h1 : (bs.set i (bs[i].1, bs[i].2.set k b)).map (·.1) = bs.map (·.1) := by
      rw [List.map_set]; apply List.ext_getElem? ; intro j; rw [List.getElem?_set]; split
      · rename_i h; subst h; simp [hi']
      · rfl
    have h2 : (bs.set i (bs[i].1, bs[i].2.set k b)).map (fun b => b.2.length) = bs.map fun b => b.2.length := by
      rw [List.map_set]; apply List.ext_getElem? ; intro j; rw [List.getElem?_set]; split
      · rename_i h; subst h; simp [hi']
      · rfl
    obtain ⟨s', bs', f1, f2, f3⟩ := serveAll_ok rs e2 (by rw [h2]; exact hl) (by rw [e3, e4]; omega)
    rw [h1] at f1
    refine ⟨s', bs', by simp only [serveAll, serve, hgd, e1, ok_bind]; exact f1, f2, .cons (.store (old := bs[i].2) (by simp [hi'])) ?_⟩
    rw [List.map_set] at f3
    exact f3

end Mes.C
