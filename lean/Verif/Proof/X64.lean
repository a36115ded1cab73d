import Verif.Spec.X64
import Verif.Model.X64Defines
/- Lemmas for C78: reading an instruction does not depend on what follows it. -/
namespace Mes.X64
open X86 (Byte8)

variable {α β : Type}

/-- What is read stays the same if more bytes follow. -/
def Ext (p : P α) : Prop := ∀ bs a r x, p bs = some (a, r) → p (bs ++ x) = some (a, r ++ x)

theorem ext_ret (a : α) : Ext (P.ret a) := fun bs b r x h => by
  cases h
  rfl

theorem ext_fail : Ext (P.fail : P α) := fun _ _ _ _ h => nomatch h

theorem ext_byte : Ext P.byte := fun bs b r x h => by
  cases bs with
  | nil => cases h
  | cons c bs =>
    cases h
    rfl

theorem ext_bind {p : P α} {f : α → P β} (hp : Ext p) (hf : ∀ a, Ext (f a)) : Ext (p.bind f) := fun bs b r x h => by
  unfold P.bind at h ⊢
  cases e : p bs with
  | none => simp [e] at h
  | some y =>
    obtain ⟨a, bs'⟩ := y
    rw [e] at h
    rw [hp bs a bs' x e]
    exact hf a bs' b r x h

theorem ext_ite {c : Prop} [Decidable c] {p q : P α} (hp : Ext p) (hq : Ext q) : Ext (if c then p else q) := by
  split
  · exact hp
  · exact hq

theorem ext_sib (c : Prefix) (m s : Nat) : Ext (sib c m s) := ext_ite (ext_ite (ext_ret _) (ext_ret _)) ext_fail

theorem ext_modrmOf (c : Prefix) (m : Nat) : Ext (modrmOf c m) :=
  ext_ite (ext_ret _) (ext_ite (ext_bind ext_byte (ext_sib c _)) (ext_ite (ext_ret _) (ext_ret _)))

theorem ext_modrm (c : Prefix) : Ext (modrm c) := ext_bind ext_byte fun m => ext_bind (ext_modrmOf c m) fun _ => ext_ret _

theorem ext_orFail (o : Option Op) (f : Op → Instr) : Ext (orFail o f) := by
  cases o
  · exact ext_fail
  · exact ext_ret _

theorem ext_rm {c : Prefix} {f : Nat × RM → P β} (hf : ∀ a, Ext (f a)) : Ext ((modrm c).bind f) := ext_bind (ext_modrm c) hf

theorem ext_toRM (c : Prefix) (o : Op) (w : Width) : Ext (toRM c o w) := ext_rm fun _ => ext_ret _
theorem ext_ofRM (c : Prefix) (o : Op) (w : Width) : Ext (ofRM c o w) := ext_rm fun _ => ext_ret _

theorem ext_twoBytes (c : Prefix) (op : Nat) : Ext (twoBytes c op) := by
  unfold twoBytes
  repeat' first | exact ext_ret _ | exact ext_fail | apply ext_ite | (apply ext_rm; intro _)

theorem ext_arith (c : Prefix) (op : Nat) : Ext (arith c op) :=
  ext_ite (ext_toRM _ _ _) (ext_ite (ext_ofRM _ _ _) (ext_ite (ext_ret _) ext_fail))

theorem ext_oneByte (c : Prefix) (op : Nat) : Ext (oneByte c op) := by
  unfold oneByte
  repeat' first | exact ext_ret _ | exact ext_fail | exact ext_orFail _ _ | exact ext_toRM _ _ _ | exact ext_ofRM _ _ _ | exact ext_arith _ _ |
    apply ext_ite | exact ext_bind ext_byte (ext_twoBytes _) | (apply ext_rm; intro _)

theorem ext_afterSmall (s : Bool) (b : Nat) : Ext (afterSmall s b) := ext_ite (ext_bind ext_byte (ext_oneByte _)) (ext_oneByte _ _)

theorem ext_head : Ext head := ext_bind ext_byte fun _ => ext_ite (ext_bind ext_byte (ext_afterSmall _)) (ext_afterSmall _ _)

theorem decode_head {bs : List Byte8} {i : Instr} (h : head bs = some (i, [])) (db ib rest : List Byte8) (hd : db.length = i.dispSize)
    (hi : ib.length = i.immSize) : decode (bs ++ (db ++ (ib ++ rest))) = some (i, db, ib, rest) := by
  unfold decode
  rw [ext_head _ _ _ (db ++ (ib ++ rest)) h]
  simp only [List.nil_append]
  rw [if_pos (by simp; omega), ← hd, ← hi, List.take_left, List.drop_left, List.take_left, ← List.append_assoc, ← List.length_append, List.drop_left]

/-- A mnemonic and its bytes agree, as far as the bytes go. -/
def agrees (e : String × List Byte8) : Bool :=
  match named e.1 with
  | none => false
  | some i => head e.2 = some (i, [])

theorem agrees.defined {e : String × List Byte8} (h : agrees e = true) : Defined e.1 e.2 := by
  unfold agrees at h
  split at h
  · cases h
  · next i hi => exact ⟨i, hi, fun db ib rest hd hb => decode_head (by simpa using h) db ib rest hd hb⟩

/-- The bytes are an instruction, and it is not the one the mnemonic says. -/
def disagrees (e : String × List Byte8) : Bool :=
  match head e.2 with
  | some (j, []) => named e.1 ≠ some j
  | _ => false

theorem disagrees.not {e : String × List Byte8} (h : disagrees e = true) : ¬ Defined e.1 e.2 := by
  unfold disagrees at h
  split at h
  · next j hj =>
    rintro ⟨i, hi, g⟩
    have := g (List.replicate i.dispSize 0) (List.replicate i.immSize 0) [] (by simp) (by simp)
    have : i = j := by
      unfold decode at this
      rw [ext_head _ _ _ _ hj] at this
      simp only at this
      split at this
      · exact (Prod.mk.inj (Option.some.inj this)).1.symm
      · cases this
    subst this
    simp [hi] at h
  · cases h

/-- The mnemonics that are defined as something else. -/
def wrongNames : List String :=
  ["add____$i32,(%rax)", "add____$i32,0x32(%rbp)", "add____$i8,(%rax)", "add____$i8,(%rdi)", "add____$i8,0x8(%rbp)", "addw___$i8,(%rax)",
   "addw___$i8,(%rdi)", "mov____$i32,0x8(%rbp)", "mov____$i8,%rax", "mov____%eax,%rax", "mov____%edi,%rdi", "movz___(%rax),%rax"]

theorem agrees_all : Mescc.defines64.all (fun e => wrongNames.contains e.1 || agrees e) = true := by decide +kernel

theorem disagrees_all : wrongNames.all (fun n => Mescc.defines64.any fun e => e.1 == n && disagrees e) = true := by decide +kernel

end Mes.X64
