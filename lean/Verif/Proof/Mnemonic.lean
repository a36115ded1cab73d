import Verif.Spec.Mnemonic
import Verif.Model.X86Defines

/-
Lemmas for C65: the shapes of a definition, by the number of bytes that follow.
-/
namespace Mes.X86

theorem len0 {α : Type} {l : List α} (h : l.length = 0) : l = [] := List.length_eq_zero_iff.1 h

theorem len1 {α : Type} {l : List α} (h : l.length = 1) : ∃ a, l = [a] := List.length_eq_one_iff.1 h

theorem len4 {α : Type} {l : List α} (h : l.length = 4) : ∃ a b c d, l = [a, b, c, d] := by
  match l, h with
  | [a, b, c, d], _ => exact ⟨a, b, c, d, rfl⟩

variable {name : String} {bytes : List Byte8} {f : Word → Word → Option Instr}

theorem def00 (h : named name = some (0, 0, f)) (h' : ∀ rest, ∃ i, f 0 0 = some i ∧ decode (bytes ++ rest) = some (i, rest)) :
    Defined name bytes :=
  ⟨0, 0, f, h, fun db ib rest h1 h2 => by cases len0 h1; cases len0 h2; exact h' rest⟩

theorem def01 (h : named name = some (0, 1, f))
    (h' : ∀ b rest, ∃ i, f 0 (fieldValue [b]) = some i ∧ decode (bytes ++ b :: rest) = some (i, rest)) :
    Defined name bytes :=
  ⟨0, 1, f, h, fun db ib rest h1 h2 => by cases len0 h1; obtain ⟨b, rfl⟩ := len1 h2; exact h' b rest⟩

theorem def04 (h : named name = some (0, 4, f))
    (h' : ∀ a b c d rest, ∃ i, f 0 (fieldValue [a, b, c, d]) = some i ∧ decode (bytes ++ a :: b :: c :: d :: rest) = some (i, rest)) :
    Defined name bytes :=
  ⟨0, 4, f, h, fun db ib rest h1 h2 => by cases len0 h1; obtain ⟨a, b, c, d, rfl⟩ := len4 h2; exact h' a b c d rest⟩

theorem def10 (h : named name = some (1, 0, f))
    (h' : ∀ b rest, ∃ i, f (fieldValue [b]) 0 = some i ∧ decode (bytes ++ b :: rest) = some (i, rest)) :
    Defined name bytes :=
  ⟨1, 0, f, h, fun db ib rest h1 h2 => by cases len0 h2; obtain ⟨b, rfl⟩ := len1 h1; exact h' b rest⟩

theorem def40 (h : named name = some (4, 0, f))
    (h' : ∀ a b c d rest, ∃ i, f (fieldValue [a, b, c, d]) 0 = some i ∧ decode (bytes ++ a :: b :: c :: d :: rest) = some (i, rest)) :
    Defined name bytes :=
  ⟨4, 0, f, h, fun db ib rest h1 h2 => by cases len0 h2; obtain ⟨a, b, c, d, rfl⟩ := len4 h1; exact h' a b c d rest⟩

theorem def11 (h : named name = some (1, 1, f))
    (h' : ∀ b e rest, ∃ i, f (fieldValue [b]) (fieldValue [e]) = some i ∧ decode (bytes ++ b :: e :: rest) = some (i, rest)) :
    Defined name bytes :=
  ⟨1, 1, f, h, fun db ib rest h1 h2 => by obtain ⟨e, rfl⟩ := len1 h2; obtain ⟨b, rfl⟩ := len1 h1; exact h' b e rest⟩

theorem def14 (h : named name = some (1, 4, f))
    (h' : ∀ e a b c d rest, ∃ i, f (fieldValue [e]) (fieldValue [a, b, c, d]) = some i ∧
      decode (bytes ++ e :: a :: b :: c :: d :: rest) = some (i, rest)) :
    Defined name bytes :=
  ⟨1, 4, f, h, fun db ib rest h1 h2 => by obtain ⟨e, rfl⟩ := len1 h1; obtain ⟨a, b, c, d, rfl⟩ := len4 h2; exact h' e a b c d rest⟩

theorem def41 (h : named name = some (4, 1, f))
    (h' : ∀ a b c d e rest, ∃ i, f (fieldValue [a, b, c, d]) (fieldValue [e]) = some i ∧
      decode (bytes ++ a :: b :: c :: d :: e :: rest) = some (i, rest)) :
    Defined name bytes :=
  ⟨4, 1, f, h, fun db ib rest h1 h2 => by obtain ⟨e, rfl⟩ := len1 h2; obtain ⟨a, b, c, d, rfl⟩ := len4 h1; exact h' a b c d e rest⟩

theorem def44 (h : named name = some (4, 4, f))
    (h' : ∀ a b c d a' b' c' d' rest, ∃ i, f (fieldValue [a, b, c, d]) (fieldValue [a', b', c', d']) = some i ∧
      decode (bytes ++ a :: b :: c :: d :: a' :: b' :: c' :: d' :: rest) = some (i, rest)) :
    Defined name bytes :=
  ⟨4, 4, f, h, fun db ib rest h1 h2 => by
    obtain ⟨a', b', c', d', rfl⟩ := len4 h2; obtain ⟨a, b, c, d, rfl⟩ := len4 h1; exact h' a b c d a' b' c' d' rest⟩

/-- The mnemonics whose bytes are something else. -/
def wrongNames : List String :=
  ["addw___$i8,(%eax)", "addw___$i8,(%ebx)", "cmp____$i8,%ebx", "mov____$i8,%eax", "mov____%cl,(%ebx)", "mov____%cx,(%ebx)",
   "sub____%al,%dl", "sub____%dl,%al"]

private theorem d0 : Defined "add____$i32,%eax" [0x05] := def04 (by rfl) (fun _ _ _ _ _ => ⟨_, by rfl, by rfl⟩)
private theorem d1 : Defined "add____$i32,%ebx" [0x81, 0xc3] := def04 (by rfl) (fun _ _ _ _ _ => ⟨_, by rfl, by rfl⟩)
private theorem d2 : Defined "add____$i32,(%eax)" [0x81, 0x00] := def04 (by rfl) (fun _ _ _ _ _ => ⟨_, by rfl, by rfl⟩)
private theorem d3 : Defined "add____$i32,(%ebx)" [0x81, 0x03] := def04 (by rfl) (fun _ _ _ _ _ => ⟨_, by rfl, by rfl⟩)
private theorem d4 : Defined "add____$i32,0x32(%eax)" [0x81, 0x80] := def44 (by rfl) (fun _ _ _ _ _ _ _ _ _ => ⟨_, by rfl, by rfl⟩)
private theorem d5 : Defined "add____$i32,0x32(%ebp)" [0x81, 0x85] := def44 (by rfl) (fun _ _ _ _ _ _ _ _ _ => ⟨_, by rfl, by rfl⟩)
private theorem d6 : Defined "add____$i8,%eax" [0x83, 0xc0] := def01 (by rfl) (fun _ _ => ⟨_, by rfl, by rfl⟩)
private theorem d7 : Defined "add____$i8,%ebx" [0x83, 0xc3] := def01 (by rfl) (fun _ _ => ⟨_, by rfl, by rfl⟩)
private theorem d8 : Defined "add____$i8,%esp" [0x83, 0xc4] := def01 (by rfl) (fun _ _ => ⟨_, by rfl, by rfl⟩)
private theorem d9 : Defined "add____$i8,(%eax)" [0x83, 0x00] := def01 (by rfl) (fun _ _ => ⟨_, by rfl, by rfl⟩)
private theorem d10 : Defined "add____$i8,(%ebx)" [0x83, 0x03] := def01 (by rfl) (fun _ _ => ⟨_, by rfl, by rfl⟩)
private theorem d11 : Defined "add____$i8,0x32" [0x83, 0x05] := def41 (by rfl) (fun _ _ _ _ _ _ => ⟨_, by rfl, by rfl⟩)
private theorem d12 : Defined "add____$i8,0x32(%eax)" [0x83, 0x80] := def41 (by rfl) (fun _ _ _ _ _ _ => ⟨_, by rfl, by rfl⟩)
private theorem d13 : Defined "add____$i8,0x32(%ebp)" [0x83, 0x85] := def41 (by rfl) (fun _ _ _ _ _ _ => ⟨_, by rfl, by rfl⟩)
private theorem d14 : Defined "add____$i8,0x8(%eax)" [0x83, 0x40] := def11 (by rfl) (fun _ _ _ => ⟨_, by rfl, by rfl⟩)
private theorem d15 : Defined "add____$i8,0x8(%ebp)" [0x83, 0x45] := def11 (by rfl) (fun _ _ _ => ⟨_, by rfl, by rfl⟩)
private theorem d16 : Defined "add____%eax,%eax" [0x01, 0xc0] := def00 (by rfl) (fun _ => ⟨_, by rfl, by rfl⟩)
private theorem d17 : Defined "add____%ebp,%eax" [0x01, 0xe8] := def00 (by rfl) (fun _ => ⟨_, by rfl, by rfl⟩)
private theorem d18 : Defined "add____%ebx,%eax" [0x01, 0xd8] := def00 (by rfl) (fun _ => ⟨_, by rfl, by rfl⟩)
private theorem d19 : Defined "add____%ebx,%ebx" [0x01, 0xdb] := def00 (by rfl) (fun _ => ⟨_, by rfl, by rfl⟩)
private theorem d20 : Defined "addb___$i8,(%eax)" [0x80, 0x00] := def01 (by rfl) (fun _ _ => ⟨_, by rfl, by rfl⟩)
private theorem d21 : Defined "addb___$i8,(%ebx)" [0x80, 0x03] := def01 (by rfl) (fun _ _ => ⟨_, by rfl, by rfl⟩)
private theorem d24 : Defined "and____$i32,%eax" [0x25] := def04 (by rfl) (fun _ _ _ _ _ => ⟨_, by rfl, by rfl⟩)
private theorem d25 : Defined "and____$i32,%ebx" [0x81, 0xe3] := def04 (by rfl) (fun _ _ _ _ _ => ⟨_, by rfl, by rfl⟩)
private theorem d26 : Defined "and____%ebx,%eax" [0x21, 0xd8] := def00 (by rfl) (fun _ => ⟨_, by rfl, by rfl⟩)
private theorem d27 : Defined "call32" [0xe8] := def40 (by rfl) (fun _ _ _ _ _ => ⟨_, by rfl, by rfl⟩)
private theorem d28 : Defined "call___*%eax" [0xff, 0xd0] := def00 (by rfl) (fun _ => ⟨_, by rfl, by rfl⟩)
private theorem d29 : Defined "call___*%ebx" [0xff, 0xd3] := def00 (by rfl) (fun _ => ⟨_, by rfl, by rfl⟩)
private theorem d30 : Defined "cltd" [0x99] := def00 (by rfl) (fun _ => ⟨_, by rfl, by rfl⟩)
private theorem d31 : Defined "cmp____$0x32,%eax" [0x3d] := def04 (by rfl) (fun _ _ _ _ _ => ⟨_, by rfl, by rfl⟩)
private theorem d32 : Defined "cmp____$i32,%eax" [0x3d] := def04 (by rfl) (fun _ _ _ _ _ => ⟨_, by rfl, by rfl⟩)
private theorem d33 : Defined "cmp____$i8,%eax" [0x83, 0xf8] := def01 (by rfl) (fun _ _ => ⟨_, by rfl, by rfl⟩)
private theorem d35 : Defined "div___%ebx" [0xf7, 0xf3] := def00 (by rfl) (fun _ => ⟨_, by rfl, by rfl⟩)
private theorem d36 : Defined "hlt" [0xf4] := def00 (by rfl) (fun _ => ⟨_, by rfl, by rfl⟩)
private theorem d37 : Defined "idiv___%ebx" [0xf7, 0xfb] := def00 (by rfl) (fun _ => ⟨_, by rfl, by rfl⟩)
private theorem d38 : Defined "int" [0xcd] := def10 (by rfl) (fun _ _ => ⟨_, by rfl, by rfl⟩)
private theorem d39 : Defined "int____$0x80" [0xcd, 0x80] := def00 (by rfl) (fun _ => ⟨_, by rfl, by rfl⟩)
private theorem d40 : Defined "ja32" [0x0f, 0x87] := def40 (by rfl) (fun _ _ _ _ _ => ⟨_, by rfl, by rfl⟩)
private theorem d41 : Defined "jae32" [0x0f, 0x83] := def40 (by rfl) (fun _ _ _ _ _ => ⟨_, by rfl, by rfl⟩)
private theorem d42 : Defined "jb32" [0x0f, 0x82] := def40 (by rfl) (fun _ _ _ _ _ => ⟨_, by rfl, by rfl⟩)
private theorem d43 : Defined "jbe32" [0x0f, 0x86] := def40 (by rfl) (fun _ _ _ _ _ => ⟨_, by rfl, by rfl⟩)
private theorem d44 : Defined "je32" [0x0f, 0x84] := def40 (by rfl) (fun _ _ _ _ _ => ⟨_, by rfl, by rfl⟩)
private theorem d45 : Defined "je8" [0x74] := def10 (by rfl) (fun _ _ => ⟨_, by rfl, by rfl⟩)
private theorem d46 : Defined "jg32" [0x0f, 0x8f] := def40 (by rfl) (fun _ _ _ _ _ => ⟨_, by rfl, by rfl⟩)
private theorem d47 : Defined "jge32" [0x0f, 0x8d] := def40 (by rfl) (fun _ _ _ _ _ => ⟨_, by rfl, by rfl⟩)
private theorem d48 : Defined "jl32" [0x0f, 0x8c] := def40 (by rfl) (fun _ _ _ _ _ => ⟨_, by rfl, by rfl⟩)
private theorem d49 : Defined "jle32" [0x0f, 0x8e] := def40 (by rfl) (fun _ _ _ _ _ => ⟨_, by rfl, by rfl⟩)
private theorem d50 : Defined "jmp32" [0xe9] := def40 (by rfl) (fun _ _ _ _ _ => ⟨_, by rfl, by rfl⟩)
private theorem d51 : Defined "jmp____*%ebx" [0xff, 0xe3] := def00 (by rfl) (fun _ => ⟨_, by rfl, by rfl⟩)
private theorem d52 : Defined "jne32" [0x0f, 0x85] := def40 (by rfl) (fun _ _ _ _ _ => ⟨_, by rfl, by rfl⟩)
private theorem d53 : Defined "lahf" [0x9f] := def00 (by rfl) (fun _ => ⟨_, by rfl, by rfl⟩)
private theorem d54 : Defined "lea____0x32(%ebp),%eax" [0x8d, 0x85] := def40 (by rfl) (fun _ _ _ _ _ => ⟨_, by rfl, by rfl⟩)
private theorem d55 : Defined "lea____0x8(%ebp),%eax" [0x8d, 0x45] := def10 (by rfl) (fun _ _ => ⟨_, by rfl, by rfl⟩)
private theorem d56 : Defined "leave" [0xc9] := def00 (by rfl) (fun _ => ⟨_, by rfl, by rfl⟩)
private theorem d57 : Defined "mov____$i32,%eax" [0xb8] := def04 (by rfl) (fun _ _ _ _ _ => ⟨_, by rfl, by rfl⟩)
private theorem d58 : Defined "mov____$i32,%ebx" [0xbb] := def04 (by rfl) (fun _ _ _ _ _ => ⟨_, by rfl, by rfl⟩)
private theorem d59 : Defined "mov____$i32,(%eax)" [0xc7, 0x00] := def04 (by rfl) (fun _ _ _ _ _ => ⟨_, by rfl, by rfl⟩)
private theorem d60 : Defined "mov____$i32,0x32" [0xc7, 0x05] := def44 (by rfl) (fun _ _ _ _ _ _ _ _ _ => ⟨_, by rfl, by rfl⟩)
private theorem d61 : Defined "mov____$i32,0x8(%eax)" [0xc7, 0x40] := def14 (by rfl) (fun _ _ _ _ _ _ => ⟨_, by rfl, by rfl⟩)
private theorem d62 : Defined "mov____$i32,0x8(%ebp)" [0xc7, 0x45] := def14 (by rfl) (fun _ _ _ _ _ _ => ⟨_, by rfl, by rfl⟩)
private theorem d63 : Defined "mov____$i8,%al" [0xb0] := def01 (by rfl) (fun _ _ => ⟨_, by rfl, by rfl⟩)
private theorem d65 : Defined "mov____%al,(%ebx)" [0x88, 0x03] := def00 (by rfl) (fun _ => ⟨_, by rfl, by rfl⟩)
private theorem d66 : Defined "mov____%al,0x8(%ebp)" [0x88, 0x45] := def10 (by rfl) (fun _ _ => ⟨_, by rfl, by rfl⟩)
private theorem d67 : Defined "mov____%ax,(%ebx)" [0x66, 0x89, 0x03] := def00 (by rfl) (fun _ => ⟨_, by rfl, by rfl⟩)
private theorem d68 : Defined "mov____%ax,0x8(%ebp)" [0x66, 0x89, 0x45] := def10 (by rfl) (fun _ _ => ⟨_, by rfl, by rfl⟩)
private theorem d69 : Defined "mov____%bx,%bx" [0x66, 0x89, 0xdb] := def00 (by rfl) (fun _ => ⟨_, by rfl, by rfl⟩)
private theorem d72 : Defined "mov____%dl,(%eax)" [0x88, 0x10] := def00 (by rfl) (fun _ => ⟨_, by rfl, by rfl⟩)
private theorem d73 : Defined "mov____%dl,0x8(%eax)" [0x88, 0x50] := def10 (by rfl) (fun _ _ => ⟨_, by rfl, by rfl⟩)
private theorem d74 : Defined "mov____%eax,%ebx" [0x89, 0xc3] := def00 (by rfl) (fun _ => ⟨_, by rfl, by rfl⟩)
private theorem d75 : Defined "mov____%eax,%ecx" [0x89, 0xc1] := def00 (by rfl) (fun _ => ⟨_, by rfl, by rfl⟩)
private theorem d76 : Defined "mov____%eax,(%ebx)" [0x89, 0x03] := def00 (by rfl) (fun _ => ⟨_, by rfl, by rfl⟩)
private theorem d77 : Defined "mov____%eax,0x32" [0xa3] := def40 (by rfl) (fun _ _ _ _ _ => ⟨_, by rfl, by rfl⟩)
private theorem d78 : Defined "mov____%eax,0x32(%ebp)" [0x89, 0x85] := def40 (by rfl) (fun _ _ _ _ _ => ⟨_, by rfl, by rfl⟩)
private theorem d79 : Defined "mov____%eax,0x8(%ebp)" [0x89, 0x45] := def10 (by rfl) (fun _ _ => ⟨_, by rfl, by rfl⟩)
private theorem d80 : Defined "mov____%ebp,%eax" [0x89, 0xe8] := def00 (by rfl) (fun _ => ⟨_, by rfl, by rfl⟩)
private theorem d81 : Defined "mov____%ebp,%ebx" [0x89, 0xeb] := def00 (by rfl) (fun _ => ⟨_, by rfl, by rfl⟩)
private theorem d82 : Defined "mov____%ebx,%eax" [0x89, 0xd8] := def00 (by rfl) (fun _ => ⟨_, by rfl, by rfl⟩)
private theorem d83 : Defined "mov____%ebx,%ecx" [0x89, 0xd9] := def00 (by rfl) (fun _ => ⟨_, by rfl, by rfl⟩)
private theorem d84 : Defined "mov____%ebx,0x32" [0x89, 0x1d] := def40 (by rfl) (fun _ _ _ _ _ => ⟨_, by rfl, by rfl⟩)
private theorem d85 : Defined "mov____%ebx,0x32(%ebp)" [0x89, 0x9d] := def40 (by rfl) (fun _ _ _ _ _ => ⟨_, by rfl, by rfl⟩)
private theorem d86 : Defined "mov____%ebx,0x8(%ebp)" [0x89, 0x5d] := def10 (by rfl) (fun _ _ => ⟨_, by rfl, by rfl⟩)
private theorem d87 : Defined "mov____%ecx,(%ebx)" [0x89, 0x0b] := def00 (by rfl) (fun _ => ⟨_, by rfl, by rfl⟩)
private theorem d88 : Defined "mov____%edi,%ebp" [0x89, 0xfd] := def00 (by rfl) (fun _ => ⟨_, by rfl, by rfl⟩)
private theorem d89 : Defined "mov____%edx,%eax" [0x89, 0xd0] := def00 (by rfl) (fun _ => ⟨_, by rfl, by rfl⟩)
private theorem d90 : Defined "mov____%edx,%ebx" [0x89, 0xd3] := def00 (by rfl) (fun _ => ⟨_, by rfl, by rfl⟩)
private theorem d91 : Defined "mov____%esp,%ebp" [0x89, 0xe5] := def00 (by rfl) (fun _ => ⟨_, by rfl, by rfl⟩)
private theorem d92 : Defined "mov____%esp,%edi" [0x89, 0xe7] := def00 (by rfl) (fun _ => ⟨_, by rfl, by rfl⟩)
private theorem d93 : Defined "mov____(%eax),%cl" [0x8a, 0x08] := def00 (by rfl) (fun _ => ⟨_, by rfl, by rfl⟩)
private theorem d94 : Defined "mov____(%eax),%cx" [0x66, 0x8b, 0x08] := def00 (by rfl) (fun _ => ⟨_, by rfl, by rfl⟩)
private theorem d95 : Defined "mov____(%eax),%eax" [0x8b, 0x00] := def00 (by rfl) (fun _ => ⟨_, by rfl, by rfl⟩)
private theorem d96 : Defined "mov____(%eax),%ecx" [0x8b, 0x08] := def00 (by rfl) (fun _ => ⟨_, by rfl, by rfl⟩)
private theorem d97 : Defined "mov____(%ebx),%ebx" [0x8b, 0x1b] := def00 (by rfl) (fun _ => ⟨_, by rfl, by rfl⟩)
private theorem d98 : Defined "mov____0x32(%eax),%eax" [0x8b, 0x80] := def40 (by rfl) (fun _ _ _ _ _ => ⟨_, by rfl, by rfl⟩)
private theorem d99 : Defined "mov____0x32(%eax),%ebx" [0x8b, 0x98] := def40 (by rfl) (fun _ _ _ _ _ => ⟨_, by rfl, by rfl⟩)
private theorem d100 : Defined "mov____0x32(%ebp),%eax" [0x8b, 0x85] := def40 (by rfl) (fun _ _ _ _ _ => ⟨_, by rfl, by rfl⟩)
private theorem d101 : Defined "mov____0x32(%ebp),%ebx" [0x8b, 0x9d] := def40 (by rfl) (fun _ _ _ _ _ => ⟨_, by rfl, by rfl⟩)
private theorem d102 : Defined "mov____0x32,%eax" [0xa1] := def40 (by rfl) (fun _ _ _ _ _ => ⟨_, by rfl, by rfl⟩)
private theorem d103 : Defined "mov____0x32,%ebx" [0x8b, 0x1d] := def40 (by rfl) (fun _ _ _ _ _ => ⟨_, by rfl, by rfl⟩)
private theorem d104 : Defined "mov____0x8(%eax),%eax" [0x8b, 0x40] := def10 (by rfl) (fun _ _ => ⟨_, by rfl, by rfl⟩)
private theorem d105 : Defined "mov____0x8(%eax),%ebx" [0x8b, 0x58] := def10 (by rfl) (fun _ _ => ⟨_, by rfl, by rfl⟩)
private theorem d106 : Defined "mov____0x8(%ebp),%eax" [0x8b, 0x45] := def10 (by rfl) (fun _ _ => ⟨_, by rfl, by rfl⟩)
private theorem d107 : Defined "mov____0x8(%ebp),%ebp" [0x8b, 0x6d] := def10 (by rfl) (fun _ _ => ⟨_, by rfl, by rfl⟩)
private theorem d108 : Defined "mov____0x8(%ebp),%ebx" [0x8b, 0x5d] := def10 (by rfl) (fun _ _ => ⟨_, by rfl, by rfl⟩)
private theorem d109 : Defined "mov____0x8(%ebp),%ecx" [0x8b, 0x4d] := def10 (by rfl) (fun _ _ => ⟨_, by rfl, by rfl⟩)
private theorem d110 : Defined "mov____0x8(%ebp),%edi" [0x8b, 0x7d] := def10 (by rfl) (fun _ _ => ⟨_, by rfl, by rfl⟩)
private theorem d111 : Defined "mov____0x8(%ebp),%edx" [0x8b, 0x55] := def10 (by rfl) (fun _ _ => ⟨_, by rfl, by rfl⟩)
private theorem d112 : Defined "mov____0x8(%ebp),%esi" [0x8b, 0x75] := def10 (by rfl) (fun _ _ => ⟨_, by rfl, by rfl⟩)
private theorem d113 : Defined "mov____0x8(%ebp),%esp" [0x8b, 0x65] := def10 (by rfl) (fun _ _ => ⟨_, by rfl, by rfl⟩)
private theorem d114 : Defined "movb___%al,0x32" [0xa2] := def40 (by rfl) (fun _ _ _ _ _ => ⟨_, by rfl, by rfl⟩)
private theorem d115 : Defined "movb___%bl,0x32" [0x88, 0x1d] := def40 (by rfl) (fun _ _ _ _ _ => ⟨_, by rfl, by rfl⟩)
private theorem d116 : Defined "movsbl_%al,%eax" [0x0f, 0xbe, 0xc0] := def00 (by rfl) (fun _ => ⟨_, by rfl, by rfl⟩)
private theorem d117 : Defined "movsbl_%bl,%ebx" [0x0f, 0xbe, 0xdb] := def00 (by rfl) (fun _ => ⟨_, by rfl, by rfl⟩)
private theorem d118 : Defined "movswl_%ax,%eax" [0x0f, 0xbf, 0xc0] := def00 (by rfl) (fun _ => ⟨_, by rfl, by rfl⟩)
private theorem d119 : Defined "movswl_%bx,%ebx" [0x0f, 0xbf, 0xdb] := def00 (by rfl) (fun _ => ⟨_, by rfl, by rfl⟩)
private theorem d120 : Defined "movw___%ax,0x32" [0x66, 0xa3] := def40 (by rfl) (fun _ _ _ _ _ => ⟨_, by rfl, by rfl⟩)
private theorem d121 : Defined "movw___%bx,0x32" [0x66, 0x89, 0x1d] := def40 (by rfl) (fun _ _ _ _ _ => ⟨_, by rfl, by rfl⟩)
private theorem d122 : Defined "movzbl_%al,%eax" [0x0f, 0xb6, 0xc0] := def00 (by rfl) (fun _ => ⟨_, by rfl, by rfl⟩)
private theorem d123 : Defined "movzbl_%bl,%ebx" [0x0f, 0xb6, 0xdb] := def00 (by rfl) (fun _ => ⟨_, by rfl, by rfl⟩)
private theorem d124 : Defined "movzbl_(%eax),%eax" [0x0f, 0xb6, 0x00] := def00 (by rfl) (fun _ => ⟨_, by rfl, by rfl⟩)
private theorem d125 : Defined "movzbl_(%ebx),%ebx" [0x0f, 0xb6, 0x1b] := def00 (by rfl) (fun _ => ⟨_, by rfl, by rfl⟩)
private theorem d126 : Defined "movzbl_0x32(%eax),%eax" [0x0f, 0xb6, 0x80] := def40 (by rfl) (fun _ _ _ _ _ => ⟨_, by rfl, by rfl⟩)
private theorem d127 : Defined "movzbl_0x8(%eax),%eax" [0x0f, 0xb6, 0x40] := def10 (by rfl) (fun _ _ => ⟨_, by rfl, by rfl⟩)
private theorem d128 : Defined "movzbl_0x8(%ebp),%eax" [0x0f, 0xb6, 0x45] := def10 (by rfl) (fun _ _ => ⟨_, by rfl, by rfl⟩)
private theorem d129 : Defined "movzwl_%ax,%eax" [0x0f, 0xb7, 0xc0] := def00 (by rfl) (fun _ => ⟨_, by rfl, by rfl⟩)
private theorem d130 : Defined "movzwl_%bx,%ebx" [0x0f, 0xb7, 0xdb] := def00 (by rfl) (fun _ => ⟨_, by rfl, by rfl⟩)
private theorem d131 : Defined "movzwl_(%eax),%eax" [0x0f, 0xb7, 0x00] := def00 (by rfl) (fun _ => ⟨_, by rfl, by rfl⟩)
private theorem d132 : Defined "movzwl_(%ebx),%ebx" [0x0f, 0xb7, 0x1b] := def00 (by rfl) (fun _ => ⟨_, by rfl, by rfl⟩)
private theorem d133 : Defined "movzwl_0x32(%eax),%eax" [0x0f, 0xb7, 0x80] := def40 (by rfl) (fun _ _ _ _ _ => ⟨_, by rfl, by rfl⟩)
private theorem d134 : Defined "movzwl_0x32(%ebp),%eax" [0x0f, 0xb7, 0x85] := def40 (by rfl) (fun _ _ _ _ _ => ⟨_, by rfl, by rfl⟩)
private theorem d135 : Defined "movzwl_0x8(%eax),%eax" [0x0f, 0xb7, 0x40] := def10 (by rfl) (fun _ _ => ⟨_, by rfl, by rfl⟩)
private theorem d136 : Defined "mul____%ebx" [0xf7, 0xe3] := def00 (by rfl) (fun _ => ⟨_, by rfl, by rfl⟩)
private theorem d137 : Defined "mul_____%ebx" [0xf7, 0xe3] := def00 (by rfl) (fun _ => ⟨_, by rfl, by rfl⟩)
private theorem d138 : Defined "nop" [0x90] := def00 (by rfl) (fun _ => ⟨_, by rfl, by rfl⟩)
private theorem d139 : Defined "not____%eax" [0xf7, 0xd0] := def00 (by rfl) (fun _ => ⟨_, by rfl, by rfl⟩)
private theorem d140 : Defined "not____%ebx" [0xf7, 0xd3] := def00 (by rfl) (fun _ => ⟨_, by rfl, by rfl⟩)
private theorem d141 : Defined "or_____%ebx,%eax" [0x09, 0xd8] := def00 (by rfl) (fun _ => ⟨_, by rfl, by rfl⟩)
private theorem d142 : Defined "pop____%eax" [0x58] := def00 (by rfl) (fun _ => ⟨_, by rfl, by rfl⟩)
private theorem d143 : Defined "pop____%ebx" [0x5b] := def00 (by rfl) (fun _ => ⟨_, by rfl, by rfl⟩)
private theorem d144 : Defined "pop____%edx" [0x5a] := def00 (by rfl) (fun _ => ⟨_, by rfl, by rfl⟩)
private theorem d145 : Defined "push___$i32" [0x68] := def04 (by rfl) (fun _ _ _ _ _ => ⟨_, by rfl, by rfl⟩)
private theorem d146 : Defined "push___%eax" [0x50] := def00 (by rfl) (fun _ => ⟨_, by rfl, by rfl⟩)
private theorem d147 : Defined "push___%ebp" [0x55] := def00 (by rfl) (fun _ => ⟨_, by rfl, by rfl⟩)
private theorem d148 : Defined "push___%ebx" [0x53] := def00 (by rfl) (fun _ => ⟨_, by rfl, by rfl⟩)
private theorem d149 : Defined "push___%edx" [0x52] := def00 (by rfl) (fun _ => ⟨_, by rfl, by rfl⟩)
private theorem d150 : Defined "push___(%eax)" [0xff, 0x30] := def00 (by rfl) (fun _ => ⟨_, by rfl, by rfl⟩)
private theorem d151 : Defined "push___0x32(%ebp)" [0xff, 0xb5] := def40 (by rfl) (fun _ _ _ _ _ => ⟨_, by rfl, by rfl⟩)
private theorem d152 : Defined "push___0x8(%ebp)" [0xff, 0x75] := def10 (by rfl) (fun _ _ => ⟨_, by rfl, by rfl⟩)
private theorem d153 : Defined "ret" [0xc3] := def00 (by rfl) (fun _ => ⟨_, by rfl, by rfl⟩)
private theorem d154 : Defined "sahf" [0x9e] := def00 (by rfl) (fun _ => ⟨_, by rfl, by rfl⟩)
private theorem d155 : Defined "seta___%al" [0x0f, 0x97, 0xc0] := def00 (by rfl) (fun _ => ⟨_, by rfl, by rfl⟩)
private theorem d156 : Defined "seta___%bl" [0x0f, 0x97, 0xc3] := def00 (by rfl) (fun _ => ⟨_, by rfl, by rfl⟩)
private theorem d157 : Defined "setae__%al" [0x0f, 0x93, 0xc0] := def00 (by rfl) (fun _ => ⟨_, by rfl, by rfl⟩)
private theorem d158 : Defined "setae__%bl" [0x0f, 0x93, 0xc3] := def00 (by rfl) (fun _ => ⟨_, by rfl, by rfl⟩)
private theorem d159 : Defined "setb___%al" [0x0f, 0x92, 0xc0] := def00 (by rfl) (fun _ => ⟨_, by rfl, by rfl⟩)
private theorem d160 : Defined "setb___%bl" [0x0f, 0x92, 0xc3] := def00 (by rfl) (fun _ => ⟨_, by rfl, by rfl⟩)
private theorem d161 : Defined "setbe__%al" [0x0f, 0x96, 0xc0] := def00 (by rfl) (fun _ => ⟨_, by rfl, by rfl⟩)
private theorem d162 : Defined "setbe__%bl" [0x0f, 0x96, 0xc3] := def00 (by rfl) (fun _ => ⟨_, by rfl, by rfl⟩)
private theorem d163 : Defined "sete___%al" [0x0f, 0x94, 0xc0] := def00 (by rfl) (fun _ => ⟨_, by rfl, by rfl⟩)
private theorem d164 : Defined "sete___%bl" [0x0f, 0x94, 0xc3] := def00 (by rfl) (fun _ => ⟨_, by rfl, by rfl⟩)
private theorem d165 : Defined "setg___%al" [0x0f, 0x9f, 0xc0] := def00 (by rfl) (fun _ => ⟨_, by rfl, by rfl⟩)
private theorem d166 : Defined "setg___%bl" [0x0f, 0x9f, 0xc3] := def00 (by rfl) (fun _ => ⟨_, by rfl, by rfl⟩)
private theorem d167 : Defined "setge__%al" [0x0f, 0x9d, 0xc0] := def00 (by rfl) (fun _ => ⟨_, by rfl, by rfl⟩)
private theorem d168 : Defined "setge__%bl" [0x0f, 0x9d, 0xc3] := def00 (by rfl) (fun _ => ⟨_, by rfl, by rfl⟩)
private theorem d169 : Defined "setl___%al" [0x0f, 0x9c, 0xc0] := def00 (by rfl) (fun _ => ⟨_, by rfl, by rfl⟩)
private theorem d170 : Defined "setl___%bl" [0x0f, 0x9c, 0xc3] := def00 (by rfl) (fun _ => ⟨_, by rfl, by rfl⟩)
private theorem d171 : Defined "setle__%al" [0x0f, 0x9e, 0xc0] := def00 (by rfl) (fun _ => ⟨_, by rfl, by rfl⟩)
private theorem d172 : Defined "setle__%bl" [0x0f, 0x9e, 0xc3] := def00 (by rfl) (fun _ => ⟨_, by rfl, by rfl⟩)
private theorem d173 : Defined "setne__%al" [0x0f, 0x95, 0xc0] := def00 (by rfl) (fun _ => ⟨_, by rfl, by rfl⟩)
private theorem d174 : Defined "setne__%bl" [0x0f, 0x95, 0xc3] := def00 (by rfl) (fun _ => ⟨_, by rfl, by rfl⟩)
private theorem d175 : Defined "shl____$i8,%eax" [0xc1, 0xe0] := def01 (by rfl) (fun _ _ => ⟨_, by rfl, by rfl⟩)
private theorem d176 : Defined "shl____$i8,%ebx" [0xc1, 0xe3] := def01 (by rfl) (fun _ _ => ⟨_, by rfl, by rfl⟩)
private theorem d177 : Defined "shl____%cl,%eax" [0xd3, 0xe0] := def00 (by rfl) (fun _ => ⟨_, by rfl, by rfl⟩)
private theorem d178 : Defined "shl____%cl,%ebx" [0xd3, 0xe3] := def00 (by rfl) (fun _ => ⟨_, by rfl, by rfl⟩)
private theorem d179 : Defined "shr____%cl,%eax" [0xd3, 0xe8] := def00 (by rfl) (fun _ => ⟨_, by rfl, by rfl⟩)
private theorem d180 : Defined "sub____$8,%esp" [0x83, 0xec] := def01 (by rfl) (fun _ _ => ⟨_, by rfl, by rfl⟩)
private theorem d181 : Defined "sub____$i32,%esp" [0x81, 0xec] := def04 (by rfl) (fun _ _ _ _ _ => ⟨_, by rfl, by rfl⟩)
private theorem d184 : Defined "sub____%ebx,%eax" [0x29, 0xd8] := def00 (by rfl) (fun _ => ⟨_, by rfl, by rfl⟩)
private theorem d185 : Defined "test___%al,%al" [0x84, 0xc0] := def00 (by rfl) (fun _ => ⟨_, by rfl, by rfl⟩)
private theorem d186 : Defined "test___%eax,%eax" [0x85, 0xc0] := def00 (by rfl) (fun _ => ⟨_, by rfl, by rfl⟩)
private theorem d187 : Defined "test___%ebx,%ebx" [0x85, 0xdb] := def00 (by rfl) (fun _ => ⟨_, by rfl, by rfl⟩)
private theorem d188 : Defined "xchg___%eax,%ebx" [0x93] := def00 (by rfl) (fun _ => ⟨_, by rfl, by rfl⟩)
private theorem d189 : Defined "xchg___%eax,(%esp)" [0x87, 0x04, 0x24] := def00 (by rfl) (fun _ => ⟨_, by rfl, by rfl⟩)
private theorem d190 : Defined "xchg___%ebx,(%esp)" [0x87, 0x1c, 0x24] := def00 (by rfl) (fun _ => ⟨_, by rfl, by rfl⟩)
private theorem d191 : Defined "xor____$i32,%eax" [0x35] := def04 (by rfl) (fun _ _ _ _ _ => ⟨_, by rfl, by rfl⟩)
private theorem d192 : Defined "xor____$i8,%ah" [0x80, 0xf4] := def01 (by rfl) (fun _ _ => ⟨_, by rfl, by rfl⟩)
private theorem d193 : Defined "xor____%eax,%eax" [0x31, 0xc0] := def00 (by rfl) (fun _ => ⟨_, by rfl, by rfl⟩)
private theorem d194 : Defined "xor____%ebx,%eax" [0x31, 0xd8] := def00 (by rfl) (fun _ => ⟨_, by rfl, by rfl⟩)
private theorem d195 : Defined "xor____%ebx,%ebx" [0x31, 0xdb] := def00 (by rfl) (fun _ => ⟨_, by rfl, by rfl⟩)
private theorem d196 : Defined "xor____%edx,%edx" [0x31, 0xd2] := def00 (by rfl) (fun _ => ⟨_, by rfl, by rfl⟩)

theorem defined_all : ∀ e ∈ Mescc.defines, e.1 ∉ wrongNames → Defined e.1 e.2 := by
  unfold Mescc.defines
  refine List.forall_mem_cons.2 ⟨fun _ => d0, ?_⟩
  refine List.forall_mem_cons.2 ⟨fun _ => d1, ?_⟩
  refine List.forall_mem_cons.2 ⟨fun _ => d2, ?_⟩
  refine List.forall_mem_cons.2 ⟨fun _ => d3, ?_⟩
  refine List.forall_mem_cons.2 ⟨fun _ => d4, ?_⟩
  refine List.forall_mem_cons.2 ⟨fun _ => d5, ?_⟩
  refine List.forall_mem_cons.2 ⟨fun _ => d6, ?_⟩
  refine List.forall_mem_cons.2 ⟨fun _ => d7, ?_⟩
  refine List.forall_mem_cons.2 ⟨fun _ => d8, ?_⟩
  refine List.forall_mem_cons.2 ⟨fun _ => d9, ?_⟩
  refine List.forall_mem_cons.2 ⟨fun _ => d10, ?_⟩
  refine List.forall_mem_cons.2 ⟨fun _ => d11, ?_⟩
  refine List.forall_mem_cons.2 ⟨fun _ => d12, ?_⟩
  refine List.forall_mem_cons.2 ⟨fun _ => d13, ?_⟩
  refine List.forall_mem_cons.2 ⟨fun _ => d14, ?_⟩
  refine List.forall_mem_cons.2 ⟨fun _ => d15, ?_⟩
  refine List.forall_mem_cons.2 ⟨fun _ => d16, ?_⟩
  refine List.forall_mem_cons.2 ⟨fun _ => d17, ?_⟩
  refine List.forall_mem_cons.2 ⟨fun _ => d18, ?_⟩
  refine List.forall_mem_cons.2 ⟨fun _ => d19, ?_⟩
  refine List.forall_mem_cons.2 ⟨fun _ => d20, ?_⟩
  refine List.forall_mem_cons.2 ⟨fun _ => d21, ?_⟩
  refine List.forall_mem_cons.2 ⟨fun h => absurd (by decide +kernel) h, ?_⟩
  refine List.forall_mem_cons.2 ⟨fun h => absurd (by decide +kernel) h, ?_⟩
  refine List.forall_mem_cons.2 ⟨fun _ => d24, ?_⟩
  refine List.forall_mem_cons.2 ⟨fun _ => d25, ?_⟩
  refine List.forall_mem_cons.2 ⟨fun _ => d26, ?_⟩
  refine List.forall_mem_cons.2 ⟨fun _ => d27, ?_⟩
  refine List.forall_mem_cons.2 ⟨fun _ => d28, ?_⟩
  refine List.forall_mem_cons.2 ⟨fun _ => d29, ?_⟩
  refine List.forall_mem_cons.2 ⟨fun _ => d30, ?_⟩
  refine List.forall_mem_cons.2 ⟨fun _ => d31, ?_⟩
  refine List.forall_mem_cons.2 ⟨fun _ => d32, ?_⟩
  refine List.forall_mem_cons.2 ⟨fun _ => d33, ?_⟩
  refine List.forall_mem_cons.2 ⟨fun h => absurd (by decide +kernel) h, ?_⟩
  refine List.forall_mem_cons.2 ⟨fun _ => d35, ?_⟩
  refine List.forall_mem_cons.2 ⟨fun _ => d36, ?_⟩
  refine List.forall_mem_cons.2 ⟨fun _ => d37, ?_⟩
  refine List.forall_mem_cons.2 ⟨fun _ => d38, ?_⟩
  refine List.forall_mem_cons.2 ⟨fun _ => d39, ?_⟩
  refine List.forall_mem_cons.2 ⟨fun _ => d40, ?_⟩
  refine List.forall_mem_cons.2 ⟨fun _ => d41, ?_⟩
  refine List.forall_mem_cons.2 ⟨fun _ => d42, ?_⟩
  refine List.forall_mem_cons.2 ⟨fun _ => d43, ?_⟩
  refine List.forall_mem_cons.2 ⟨fun _ => d44, ?_⟩
  refine List.forall_mem_cons.2 ⟨fun _ => d45, ?_⟩
  refine List.forall_mem_cons.2 ⟨fun _ => d46, ?_⟩
  refine List.forall_mem_cons.2 ⟨fun _ => d47, ?_⟩
  refine List.forall_mem_cons.2 ⟨fun _ => d48, ?_⟩
  refine List.forall_mem_cons.2 ⟨fun _ => d49, ?_⟩
  refine List.forall_mem_cons.2 ⟨fun _ => d50, ?_⟩
  refine List.forall_mem_cons.2 ⟨fun _ => d51, ?_⟩
  refine List.forall_mem_cons.2 ⟨fun _ => d52, ?_⟩
  refine List.forall_mem_cons.2 ⟨fun _ => d53, ?_⟩
  refine List.forall_mem_cons.2 ⟨fun _ => d54, ?_⟩
  refine List.forall_mem_cons.2 ⟨fun _ => d55, ?_⟩
  refine List.forall_mem_cons.2 ⟨fun _ => d56, ?_⟩
  refine List.forall_mem_cons.2 ⟨fun _ => d57, ?_⟩
  refine List.forall_mem_cons.2 ⟨fun _ => d58, ?_⟩
  refine List.forall_mem_cons.2 ⟨fun _ => d59, ?_⟩
  refine List.forall_mem_cons.2 ⟨fun _ => d60, ?_⟩
  refine List.forall_mem_cons.2 ⟨fun _ => d61, ?_⟩
  refine List.forall_mem_cons.2 ⟨fun _ => d62, ?_⟩
  refine List.forall_mem_cons.2 ⟨fun _ => d63, ?_⟩
  refine List.forall_mem_cons.2 ⟨fun h => absurd (by decide +kernel) h, ?_⟩
  refine List.forall_mem_cons.2 ⟨fun _ => d65, ?_⟩
  refine List.forall_mem_cons.2 ⟨fun _ => d66, ?_⟩
  refine List.forall_mem_cons.2 ⟨fun _ => d67, ?_⟩
  refine List.forall_mem_cons.2 ⟨fun _ => d68, ?_⟩
  refine List.forall_mem_cons.2 ⟨fun _ => d69, ?_⟩
  refine List.forall_mem_cons.2 ⟨fun h => absurd (by decide +kernel) h, ?_⟩
  refine List.forall_mem_cons.2 ⟨fun h => absurd (by decide +kernel) h, ?_⟩
  refine List.forall_mem_cons.2 ⟨fun _ => d72, ?_⟩
  refine List.forall_mem_cons.2 ⟨fun _ => d73, ?_⟩
  refine List.forall_mem_cons.2 ⟨fun _ => d74, ?_⟩
  refine List.forall_mem_cons.2 ⟨fun _ => d75, ?_⟩
  refine List.forall_mem_cons.2 ⟨fun _ => d76, ?_⟩
  refine List.forall_mem_cons.2 ⟨fun _ => d77, ?_⟩
  refine List.forall_mem_cons.2 ⟨fun _ => d78, ?_⟩
  refine List.forall_mem_cons.2 ⟨fun _ => d79, ?_⟩
  refine List.forall_mem_cons.2 ⟨fun _ => d80, ?_⟩
  refine List.forall_mem_cons.2 ⟨fun _ => d81, ?_⟩
  refine List.forall_mem_cons.2 ⟨fun _ => d82, ?_⟩
  refine List.forall_mem_cons.2 ⟨fun _ => d83, ?_⟩
  refine List.forall_mem_cons.2 ⟨fun _ => d84, ?_⟩
  refine List.forall_mem_cons.2 ⟨fun _ => d85, ?_⟩
  refine List.forall_mem_cons.2 ⟨fun _ => d86, ?_⟩
  refine List.forall_mem_cons.2 ⟨fun _ => d87, ?_⟩
  refine List.forall_mem_cons.2 ⟨fun _ => d88, ?_⟩
  refine List.forall_mem_cons.2 ⟨fun _ => d89, ?_⟩
  refine List.forall_mem_cons.2 ⟨fun _ => d90, ?_⟩
  refine List.forall_mem_cons.2 ⟨fun _ => d91, ?_⟩
  refine List.forall_mem_cons.2 ⟨fun _ => d92, ?_⟩
  refine List.forall_mem_cons.2 ⟨fun _ => d93, ?_⟩
  refine List.forall_mem_cons.2 ⟨fun _ => d94, ?_⟩
  refine List.forall_mem_cons.2 ⟨fun _ => d95, ?_⟩
  refine List.forall_mem_cons.2 ⟨fun _ => d96, ?_⟩
  refine List.forall_mem_cons.2 ⟨fun _ => d97, ?_⟩
  refine List.forall_mem_cons.2 ⟨fun _ => d98, ?_⟩
  refine List.forall_mem_cons.2 ⟨fun _ => d99, ?_⟩
  refine List.forall_mem_cons.2 ⟨fun _ => d100, ?_⟩
  refine List.forall_mem_cons.2 ⟨fun _ => d101, ?_⟩
  refine List.forall_mem_cons.2 ⟨fun _ => d102, ?_⟩
  refine List.forall_mem_cons.2 ⟨fun _ => d103, ?_⟩
  refine List.forall_mem_cons.2 ⟨fun _ => d104, ?_⟩
  refine List.forall_mem_cons.2 ⟨fun _ => d105, ?_⟩
  refine List.forall_mem_cons.2 ⟨fun _ => d106, ?_⟩
  refine List.forall_mem_cons.2 ⟨fun _ => d107, ?_⟩
  refine List.forall_mem_cons.2 ⟨fun _ => d108, ?_⟩
  refine List.forall_mem_cons.2 ⟨fun _ => d109, ?_⟩
  refine List.forall_mem_cons.2 ⟨fun _ => d110, ?_⟩
  refine List.forall_mem_cons.2 ⟨fun _ => d111, ?_⟩
  refine List.forall_mem_cons.2 ⟨fun _ => d112, ?_⟩
  refine List.forall_mem_cons.2 ⟨fun _ => d113, ?_⟩
  refine List.forall_mem_cons.2 ⟨fun _ => d114, ?_⟩
  refine List.forall_mem_cons.2 ⟨fun _ => d115, ?_⟩
  refine List.forall_mem_cons.2 ⟨fun _ => d116, ?_⟩
  refine List.forall_mem_cons.2 ⟨fun _ => d117, ?_⟩
  refine List.forall_mem_cons.2 ⟨fun _ => d118, ?_⟩
  refine List.forall_mem_cons.2 ⟨fun _ => d119, ?_⟩
  refine List.forall_mem_cons.2 ⟨fun _ => d120, ?_⟩
  refine List.forall_mem_cons.2 ⟨fun _ => d121, ?_⟩
  refine List.forall_mem_cons.2 ⟨fun _ => d122, ?_⟩
  refine List.forall_mem_cons.2 ⟨fun _ => d123, ?_⟩
  refine List.forall_mem_cons.2 ⟨fun _ => d124, ?_⟩
  refine List.forall_mem_cons.2 ⟨fun _ => d125, ?_⟩
  refine List.forall_mem_cons.2 ⟨fun _ => d126, ?_⟩
  refine List.forall_mem_cons.2 ⟨fun _ => d127, ?_⟩
  refine List.forall_mem_cons.2 ⟨fun _ => d128, ?_⟩
  refine List.forall_mem_cons.2 ⟨fun _ => d129, ?_⟩
  refine List.forall_mem_cons.2 ⟨fun _ => d130, ?_⟩
  refine List.forall_mem_cons.2 ⟨fun _ => d131, ?_⟩
  refine List.forall_mem_cons.2 ⟨fun _ => d132, ?_⟩
  refine List.forall_mem_cons.2 ⟨fun _ => d133, ?_⟩
  refine List.forall_mem_cons.2 ⟨fun _ => d134, ?_⟩
  refine List.forall_mem_cons.2 ⟨fun _ => d135, ?_⟩
  refine List.forall_mem_cons.2 ⟨fun _ => d136, ?_⟩
  refine List.forall_mem_cons.2 ⟨fun _ => d137, ?_⟩
  refine List.forall_mem_cons.2 ⟨fun _ => d138, ?_⟩
  refine List.forall_mem_cons.2 ⟨fun _ => d139, ?_⟩
  refine List.forall_mem_cons.2 ⟨fun _ => d140, ?_⟩
  refine List.forall_mem_cons.2 ⟨fun _ => d141, ?_⟩
  refine List.forall_mem_cons.2 ⟨fun _ => d142, ?_⟩
  refine List.forall_mem_cons.2 ⟨fun _ => d143, ?_⟩
  refine List.forall_mem_cons.2 ⟨fun _ => d144, ?_⟩
  refine List.forall_mem_cons.2 ⟨fun _ => d145, ?_⟩
  refine List.forall_mem_cons.2 ⟨fun _ => d146, ?_⟩
  refine List.forall_mem_cons.2 ⟨fun _ => d147, ?_⟩
  refine List.forall_mem_cons.2 ⟨fun _ => d148, ?_⟩
  refine List.forall_mem_cons.2 ⟨fun _ => d149, ?_⟩
  refine List.forall_mem_cons.2 ⟨fun _ => d150, ?_⟩
  refine List.forall_mem_cons.2 ⟨fun _ => d151, ?_⟩
  refine List.forall_mem_cons.2 ⟨fun _ => d152, ?_⟩
  refine List.forall_mem_cons.2 ⟨fun _ => d153, ?_⟩
  refine List.forall_mem_cons.2 ⟨fun _ => d154, ?_⟩
  refine List.forall_mem_cons.2 ⟨fun _ => d155, ?_⟩
  refine List.forall_mem_cons.2 ⟨fun _ => d156, ?_⟩
  refine List.forall_mem_cons.2 ⟨fun _ => d157, ?_⟩
  refine List.forall_mem_cons.2 ⟨fun _ => d158, ?_⟩
  refine List.forall_mem_cons.2 ⟨fun _ => d159, ?_⟩
  refine List.forall_mem_cons.2 ⟨fun _ => d160, ?_⟩
  refine List.forall_mem_cons.2 ⟨fun _ => d161, ?_⟩
  refine List.forall_mem_cons.2 ⟨fun _ => d162, ?_⟩
  refine List.forall_mem_cons.2 ⟨fun _ => d163, ?_⟩
  refine List.forall_mem_cons.2 ⟨fun _ => d164, ?_⟩
  refine List.forall_mem_cons.2 ⟨fun _ => d165, ?_⟩
  refine List.forall_mem_cons.2 ⟨fun _ => d166, ?_⟩
  refine List.forall_mem_cons.2 ⟨fun _ => d167, ?_⟩
  refine List.forall_mem_cons.2 ⟨fun _ => d168, ?_⟩
  refine List.forall_mem_cons.2 ⟨fun _ => d169, ?_⟩
  refine List.forall_mem_cons.2 ⟨fun _ => d170, ?_⟩
  refine List.forall_mem_cons.2 ⟨fun _ => d171, ?_⟩
  refine List.forall_mem_cons.2 ⟨fun _ => d172, ?_⟩
  refine List.forall_mem_cons.2 ⟨fun _ => d173, ?_⟩
  refine List.forall_mem_cons.2 ⟨fun _ => d174, ?_⟩
  refine List.forall_mem_cons.2 ⟨fun _ => d175, ?_⟩
  refine List.forall_mem_cons.2 ⟨fun _ => d176, ?_⟩
  refine List.forall_mem_cons.2 ⟨fun _ => d177, ?_⟩
  refine List.forall_mem_cons.2 ⟨fun _ => d178, ?_⟩
  refine List.forall_mem_cons.2 ⟨fun _ => d179, ?_⟩
  refine List.forall_mem_cons.2 ⟨fun _ => d180, ?_⟩
  refine List.forall_mem_cons.2 ⟨fun _ => d181, ?_⟩
  refine List.forall_mem_cons.2 ⟨fun h => absurd (by decide +kernel) h, ?_⟩
  refine List.forall_mem_cons.2 ⟨fun h => absurd (by decide +kernel) h, ?_⟩
  refine List.forall_mem_cons.2 ⟨fun _ => d184, ?_⟩
  refine List.forall_mem_cons.2 ⟨fun _ => d185, ?_⟩
  refine List.forall_mem_cons.2 ⟨fun _ => d186, ?_⟩
  refine List.forall_mem_cons.2 ⟨fun _ => d187, ?_⟩
  refine List.forall_mem_cons.2 ⟨fun _ => d188, ?_⟩
  refine List.forall_mem_cons.2 ⟨fun _ => d189, ?_⟩
  refine List.forall_mem_cons.2 ⟨fun _ => d190, ?_⟩
  refine List.forall_mem_cons.2 ⟨fun _ => d191, ?_⟩
  refine List.forall_mem_cons.2 ⟨fun _ => d192, ?_⟩
  refine List.forall_mem_cons.2 ⟨fun _ => d193, ?_⟩
  refine List.forall_mem_cons.2 ⟨fun _ => d194, ?_⟩
  refine List.forall_mem_cons.2 ⟨fun _ => d195, ?_⟩
  refine List.forall_mem_cons.2 ⟨fun _ => d196, ?_⟩
  exact fun _ h => nomatch h

/-- Other bytes: with these fields the instruction is not the one the mnemonic says. -/
def differs (name : String) (bytes db ib : List Byte8) : Bool :=
  match named name with
  | none => true
  | some (nd, ni, f) =>
    db.length = nd && ib.length = ni &&
      decide ((f (fieldValue db) (fieldValue ib)).map (fun i => (i, [0, 0, 0, 0])) ≠ decode (bytes ++ (db ++ (ib ++ [0, 0, 0, 0]))))

theorem differs.not {name : String} {bytes db ib : List Byte8} (h : differs name bytes db ib = true) : ¬ Defined name bytes := by
  rintro ⟨nd, ni, f, hn, hd⟩
  unfold differs at h
  rw [hn] at h
  simp only [Bool.and_eq_true, decide_eq_true_eq] at h
  obtain ⟨⟨h1, h2⟩, h3⟩ := h
  obtain ⟨i, hf, hdec⟩ := hd db ib [0, 0, 0, 0] h1 h2
  exact h3 (by rw [hf, hdec]; rfl)

end Mes.X86
