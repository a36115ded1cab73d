/-
The functions of /repo/module/mescc/x86_64/as.scm: the mnemonics of their lines, without the constants and labels.  `al` are the allocated registers,
`rs` the others, `r`, `r0`, `r1` what `get-r`, `get-r0`, `get-r1` give, and `r2` is the first of `rs`.  Of functions
that are defined twice it is the second definition, as in the file.  `push-register` and `pop-register`, which are given a register, are left out, and so
is what `r0*r1`, `r0/r1`, `r0%r1` and `r2->r0` do if more than two registers are allocated.  An empty mnemonic stands for a line that is no list.
-/
namespace Mes.Mescc

/-- `r->e`, `r->x`: /repo/module/mescc/x86_64/as.scm:34-37. -/
def toE (r : String) : String := "e" ++ String.ofList (r.toList.drop 1)
def toX (r : String) : String := String.ofList (r.toList.drop 1)

/-- `r->l`: /repo/module/mescc/x86_64/as.scm:38-47; `string-append` of `#f` is an error, for which the empty name stands. -/
def toL (r : String) : String :=
  ([("rax", "al"), ("rdi", "dil"), ("rsi", "sil"), ("rdx", "dl"), ("rcx", "cl"), ("r8", "r8b"), ("r9", "r9b")].lookup r).getD ""

/-- `x86_64:registers`: /repo/module/mescc/x86_64/info.scm:34. -/
def registers64 : List String := ["rax", "rdi", "rsi", "rdx", "rcx", "r8", "r9", "r10", "r11", "r12", "r13", "r14", "r15"]

/-- `x86_64:instructions`: /repo/module/mescc/x86_64/as.scm:677-780. -/
inductive Fn64
  /-- `x86_64:a?->r`: /repo/module/mescc/x86_64/as.scm:345-349 -/
  | aToR
  /-- `x86_64:ae?->r`: /repo/module/mescc/x86_64/as.scm:351-355 -/
  | aeToR
  /-- `x86_64:b?->r`: /repo/module/mescc/x86_64/as.scm:357-361 -/
  | bToR
  /-- `x86_64:be?->r`: /repo/module/mescc/x86_64/as.scm:363-367 -/
  | beToR
  /-- `x86_64:g?->r`: /repo/module/mescc/x86_64/as.scm:320-324 -/
  | gToR
  /-- `x86_64:ge?->r`: /repo/module/mescc/x86_64/as.scm:326-330 -/
  | geToR
  /-- `x86_64:l?->r`: /repo/module/mescc/x86_64/as.scm:332-336 -/
  | lToR
  /-- `x86_64:le?->r`: /repo/module/mescc/x86_64/as.scm:338-342 -/
  | leToR
  /-- `x86_64:byte-mem->r`: /repo/module/mescc/x86_64/as.scm:206-208 -/
  | byteMemToR
  /-- `x86_64:byte-r`: /repo/module/mescc/x86_64/as.scm:210-213 -/
  | byteR
  /-- `x86_64:byte-r->local+n`: /repo/module/mescc/x86_64/as.scm:617-622 -/
  | byteRToLocal (id n : Int)
  /-- `x86_64:word-r->local+n`: /repo/module/mescc/x86_64/as.scm:624-629 -/
  | wordRToLocal (id n : Int)
  /-- `x86_64:long-r->local+n`: /repo/module/mescc/x86_64/as.scm:631-636 -/
  | longRToLocal (id n : Int)
  /-- `x86_64:byte-r0->r1-mem`: /repo/module/mescc/x86_64/as.scm:500-504 -/
  | byteR0ToR1Mem
  /-- `x86_64:word-r0->r1-mem`: /repo/module/mescc/x86_64/as.scm:506-510 -/
  | wordR0ToR1Mem
  /-- `x86_64:long-r0->r1-mem`: /repo/module/mescc/x86_64/as.scm:512-516 -/
  | longR0ToR1Mem
  /-- `x86_64:byte-r0-mem->r1-mem`: /repo/module/mescc/x86_64/as.scm:570-577 -/
  | byteR0MemToR1Mem
  /-- `x86_64:word-r0-mem->r1-mem`: /repo/module/mescc/x86_64/as.scm:579-586 -/
  | wordR0MemToR1Mem
  /-- `x86_64:long-r0-mem->r1-mem`: /repo/module/mescc/x86_64/as.scm:588-595 -/
  | longR0MemToR1Mem
  /-- `x86_64:byte-signed-r`: /repo/module/mescc/x86_64/as.scm:215-218 -/
  | byteSignedR
  /-- `x86_64:call-label`: /repo/module/mescc/x86_64/as.scm:112-115 -/
  | callLabel
  /-- `x86_64:call-r`: /repo/module/mescc/x86_64/as.scm:392-395 -/
  | callR
  /-- `x86_64:function-locals`: /repo/module/mescc/x86_64/as.scm:68-72 -/
  | functionLocals
  /-- `x86_64:function-preamble`: /repo/module/mescc/x86_64/as.scm:64-66 -/
  | functionPreamble
  /-- `x86_64:jump`: /repo/module/mescc/x86_64/as.scm:240-241 -/
  | jump
  /-- `x86_64:jump-a`: /repo/module/mescc/x86_64/as.scm:267-268 -/
  | jumpA
  /-- `x86_64:jump-ae`: /repo/module/mescc/x86_64/as.scm:270-271 -/
  | jumpAe
  /-- `x86_64:jump-b`: /repo/module/mescc/x86_64/as.scm:273-274 -/
  | jumpB
  /-- `x86_64:jump-be`: /repo/module/mescc/x86_64/as.scm:276-277 -/
  | jumpBe
  /-- `x86_64:jump-g`: /repo/module/mescc/x86_64/as.scm:254-255 -/
  | jumpG
  /-- `x86_64:jump-ge`: /repo/module/mescc/x86_64/as.scm:257-258 -/
  | jumpGe
  /-- `x86_64:jump-l`: /repo/module/mescc/x86_64/as.scm:260-261 -/
  | jumpL
  /-- `x86_64:jump-le`: /repo/module/mescc/x86_64/as.scm:263-264 -/
  | jumpLe
  /-- `x86_64:jump-nz`: /repo/module/mescc/x86_64/as.scm:243-244 -/
  | jumpNz
  /-- `x86_64:jump-z`: /repo/module/mescc/x86_64/as.scm:246-247 -/
  | jumpZ
  /-- `x86_64:jump-byte-z`: /repo/module/mescc/x86_64/as.scm:249-251 -/
  | jumpByteZ
  /-- `x86_64:label->arg`: /repo/module/mescc/x86_64/as.scm:136-137 -/
  | labelToArg
  /-- `x86_64:label->r`: /repo/module/mescc/x86_64/as.scm:197-199 -/
  | labelToR
  /-- `x86_64:label-mem->r`: /repo/module/mescc/x86_64/as.scm:285-287 -/
  | labelMemToR
  /-- `x86_64:label-mem-add`: /repo/module/mescc/x86_64/as.scm:307-309 -/
  | labelMemAdd (v : Int)
  /-- `x86_64:local->r`: /repo/module/mescc/x86_64/as.scm:106-110 -/
  | localToR (id : Int)
  /-- `x86_64:local-add`: /repo/module/mescc/x86_64/as.scm:301-305 -/
  | localAdd (id v : Int)
  /-- `x86_64:local-ptr->r`: /repo/module/mescc/x86_64/as.scm:190-195 -/
  | localPtrToR (id : Int)
  /-- `x86_64:long-mem->r`: /repo/module/mescc/x86_64/as.scm:293-295 -/
  | longMemToR
  /-- `x86_64:long-r`: /repo/module/mescc/x86_64/as.scm:230-233 -/
  | longR
  /-- `x86_64:long-signed-r`: /repo/module/mescc/x86_64/as.scm:235-238 -/
  | longSignedR
  /-- `x86_64:mem->r`: /repo/module/mescc/x86_64/as.scm:297-299 -/
  | memToR
  /-- `x86_64:nop`: /repo/module/mescc/x86_64/as.scm:311-312 -/
  | nop
  /-- `x86_64:not-r`: /repo/module/mescc/x86_64/as.scm:553-555 -/
  | notR
  /-- `x86_64:pop-r0`: /repo/module/mescc/x86_64/as.scm:655-657 -/
  | popR0
  /-- `x86_64:push-r0`: /repo/module/mescc/x86_64/as.scm:646-648 -/
  | pushR0
  /-- `x86_64:r0->r1-mem`: /repo/module/mescc/x86_64/as.scm:495-498 -/
  | r0ToR1Mem
  /-- `x86_64:r+r`: /repo/module/mescc/x86_64/as.scm:549-551 -/
  | rAddR
  /-- `x86_64:r+value`: /repo/module/mescc/x86_64/as.scm:485-493 -/
  | rAddValue (v : Int)
  /-- `x86_64:r->arg`: /repo/module/mescc/x86_64/as.scm:132-134 -/
  | rToArg
  /-- `x86_64:r->byte-label`: /repo/module/mescc/x86_64/as.scm:377-380 -/
  | rToByteLabel
  /-- `x86_64:r->label`: /repo/module/mescc/x86_64/as.scm:373-375 -/
  | rToLabel
  /-- `x86_64:r->local`: /repo/module/mescc/x86_64/as.scm:74-79 -/
  | rToLocal (id : Int)
  /-- `x86_64:r->local+n`: /repo/module/mescc/x86_64/as.scm:171-175 -/
  | rToLocalN (id n : Int)
  /-- `x86_64:r->long-label`: /repo/module/mescc/x86_64/as.scm:387-390 -/
  | rToLongLabel
  /-- `x86_64:r->word-label`: /repo/module/mescc/x86_64/as.scm:382-385 -/
  | rToWordLabel
  /-- `x86_64:r-and`: /repo/module/mescc/x86_64/as.scm:638-644 -/
  | rAnd (v : Int)
  /-- `x86_64:r-byte-mem-add`: /repo/module/mescc/x86_64/as.scm:182-184 -/
  | rByteMemAdd
  /-- `x86_64:r-long-mem-add`: /repo/module/mescc/x86_64/as.scm:606-615 -/
  | rLongMemAdd (v : Int)
  /-- `x86_64:r-mem-add`: /repo/module/mescc/x86_64/as.scm:177-180 -/
  | rMemAdd (v : Int)
  /-- `x86_64:r-negate`: /repo/module/mescc/x86_64/as.scm:149-153 -/
  | rNegate
  /-- `x86_64:r-word-mem-add`: /repo/module/mescc/x86_64/as.scm:186-188 -/
  | rWordMemAdd
  /-- `x86_64:r-zero?`: /repo/module/mescc/x86_64/as.scm:102-104 -/
  | rZero
  /-- `x86_64:r0/r1`: /repo/module/mescc/x86_64/as.scm:437-460 -/
  | r0DivR1 (signed : Bool)
  /-- `x86_64:r0%r1`: /repo/module/mescc/x86_64/as.scm:462-483 -/
  | r0ModR1 (signed : Bool)
  /-- `x86_64:r0*r1`: /repo/module/mescc/x86_64/as.scm:397-418 -/
  | r0MulR1
  /-- `x86_64:r0+r1`: /repo/module/mescc/x86_64/as.scm:144-147 -/
  | r0AddR1
  /-- `x86_64:r0+value`: /repo/module/mescc/x86_64/as.scm:597-600 -/
  | r0AddValue (v : Int)
  /-- `x86_64:r0->r1`: /repo/module/mescc/x86_64/as.scm:201-204 -/
  | r0ToR1
  /-- `x86_64:r0-and-r1`: /repo/module/mescc/x86_64/as.scm:432-435 -/
  | r0AndR1
  /-- `x86_64:r0-mem->r1-mem`: /repo/module/mescc/x86_64/as.scm:562-568 -/
  | r0MemToR1Mem
  /-- `x86_64:r0-or-r1`: /repo/module/mescc/x86_64/as.scm:540-543 -/
  | r0OrR1
  /-- `x86_64:r0-r1`: /repo/module/mescc/x86_64/as.scm:155-158 -/
  | r0SubR1
  /-- `x86_64:r0-xor-r1`: /repo/module/mescc/x86_64/as.scm:557-560 -/
  | r0XorR1
  /-- `x86_64:r0<<r1`: /repo/module/mescc/x86_64/as.scm:420-424 -/
  | r0ShlR1
  /-- `x86_64:r0>>r1`: /repo/module/mescc/x86_64/as.scm:426-430 -/
  | r0ShrR1
  /-- `x86_64:r1->r0`: /repo/module/mescc/x86_64/as.scm:650-653 -/
  | r1ToR0
  /-- `x86_64:r2->r0`: /repo/module/mescc/x86_64/as.scm:667-675 -/
  | r2ToR0
  /-- `x86_64:ret`: /repo/module/mescc/x86_64/as.scm:97-100 -/
  | ret
  /-- `x86_64:return->r`: /repo/module/mescc/x86_64/as.scm:535-538 -/
  | returnToR
  /-- `x86_64:shl-r`: /repo/module/mescc/x86_64/as.scm:545-547 -/
  | shlR
  /-- `x86_64:swap-r-stack`: /repo/module/mescc/x86_64/as.scm:659-661 -/
  | swapRStack
  /-- `x86_64:swap-r0-r1`: /repo/module/mescc/x86_64/as.scm:314-317 -/
  | swapR0R1
  /-- `x86_64:swap-r1-stack`: /repo/module/mescc/x86_64/as.scm:663-665 -/
  | swapR1Stack
  /-- `x86_64:test-r`: /repo/module/mescc/x86_64/as.scm:369-371 -/
  | testR
  /-- `x86_64:value->r`: /repo/module/mescc/x86_64/as.scm:81-87 -/
  | valueToR (v : Int)
  /-- `x86_64:value->r0`: /repo/module/mescc/x86_64/as.scm:602-604 -/
  | valueToR0
  /-- `x86_64:word-mem->r`: /repo/module/mescc/x86_64/as.scm:289-291 -/
  | wordMemToR
  /-- `x86_64:word-r`: /repo/module/mescc/x86_64/as.scm:220-223 -/
  | wordR
  /-- `x86_64:word-signed-r`: /repo/module/mescc/x86_64/as.scm:225-228 -/
  | wordSignedR
  /-- `x86_64:xor-zf`: /repo/module/mescc/x86_64/as.scm:166-169 -/
  | xorZf
  /-- `x86_64:zf->r`: /repo/module/mescc/x86_64/as.scm:160-164 -/
  | zfToR
  /-- `x86_64:r-cmp-value`: /repo/module/mescc/x86_64/as.scm:518-527 -/
  | rCmpValue (v : Int)

/-- The mnemonics of the lines. -/
def Fn64.names (r r0 r1 r2 : String) (f : Fn64) : List String :=
  match f with
  | .aToR => ["seta___%" ++ toL r, "movzbq_%" ++ toL r ++ ",%" ++ r]
  | .aeToR => ["setae__%" ++ toL r, "movzbq_%" ++ toL r ++ ",%" ++ r]
  | .bToR => ["setb___%" ++ toL r, "movzbq_%" ++ toL r ++ ",%" ++ r]
  | .beToR => ["setbe__%" ++ toL r, "movzbq_%" ++ toL r ++ ",%" ++ r]
  | .gToR => ["setg___%" ++ toL r, "movzbq_%" ++ toL r ++ ",%" ++ r]
  | .geToR => ["setge__%" ++ toL r, "movzbq_%" ++ toL r ++ ",%" ++ r]
  | .lToR => ["setl___%" ++ toL r, "movzbq_%" ++ toL r ++ ",%" ++ r]
  | .leToR => ["setle__%" ++ toL r, "movzbq_%" ++ toL r ++ ",%" ++ r]
  | .byteMemToR => ["movzbq_(%" ++ r ++ "),%" ++ r]
  | .byteR => ["movzbq_%" ++ toL r ++ ",%" ++ r]
  | .byteRToLocal id n => if (0 - 8 * id + n).natAbs < 0x80 then ["mov____%" ++ toL r ++ ",0x8(%rbp)"] else ["mov____%" ++ toL r ++ ",0x32(%rbp)"]
  | .wordRToLocal id n => if (0 - 8 * id + n).natAbs < 0x80 then ["mov____%" ++ toX r ++ ",0x8(%rbp)"] else ["mov____%" ++ toX r ++ ",0x32(%rbp)"]
  | .longRToLocal id n => if (0 - 8 * id + n).natAbs < 0x80 then ["mov____%" ++ toE r ++ ",0x8(%rbp)"] else ["mov____%" ++ toE r ++ ",0x32(%rbp)"]
  | .byteR0ToR1Mem => ["mov____%" ++ toL r0 ++ ",(%" ++ r1 ++ ")"]
  | .wordR0ToR1Mem => ["mov____%" ++ toX r0 ++ ",(%" ++ r1 ++ ")"]
  | .longR0ToR1Mem => ["mov____%" ++ toE r0 ++ ",(%" ++ r1 ++ ")"]
  | .byteR0MemToR1Mem => ["mov____(%" ++ r0 ++ "),%" ++ toL r2, "mov____%" ++ toL r2 ++ ",(%" ++ r1 ++ ")"]
  | .wordR0MemToR1Mem => ["mov____(%" ++ r0 ++ "),%" ++ toX r2, "mov____%" ++ toX r2 ++ ",(%" ++ r1 ++ ")"]
  | .longR0MemToR1Mem => ["mov____(%" ++ r0 ++ "),%" ++ toE r2, "mov____%" ++ toE r2 ++ ",(%" ++ r1 ++ ")"]
  | .byteSignedR => ["movsbq_%" ++ toL r ++ ",%" ++ r]
  | .callLabel => ["call32", "add____$i8,%rsp"]
  | .callR => ["call___*%" ++ r, "add____$i8,%rsp"]
  | .functionLocals => ["sub____$i32,%rsp"]
  | .functionPreamble => ["push___%rbp", "mov____%rsp,%rbp"]
  | .jump => ["jmp32"]
  | .jumpA => ["ja32"]
  | .jumpAe => ["jae32"]
  | .jumpB => ["jb32"]
  | .jumpBe => ["jbe32"]
  | .jumpG => ["jg32"]
  | .jumpGe => ["jge32"]
  | .jumpL => ["jl32"]
  | .jumpLe => ["jle32"]
  | .jumpNz => ["jne32"]
  | .jumpZ => ["je32"]
  | .jumpByteZ => ["test___%al,%al", "je32"]
  | .labelToArg => ["push___$i32"]
  | .labelToR => ["mov____$i64,%" ++ r]
  | .labelMemToR => ["mov____0x32,%" ++ r]
  | .labelMemAdd v => if (v).natAbs < 0x80 then ["add____$i8,0x32"] else ["add____$i32,0x32"]
  | .localToR id => if (0 - 8 * id).natAbs < 0x80 then ["mov____0x8(%rbp),%" ++ r] else ["mov____0x32(%rbp),%" ++ r]
  | .localAdd id v => if (0 - 8 * id).natAbs < 0x80 ∧ v.natAbs < 0x80 then ["add____$i8,0x8(%rbp)"] else ["add____$i32,0x32(%rbp)"]
  | .localPtrToR id => ("mov____%rbp,%" ++ r) :: (if (0 - 8 * id).natAbs < 0x80 then ["add____$i8,%" ++ r] else ["add____$i32,%" ++ r])
  | .longMemToR => ["movzlq_(%" ++ r ++ "),%" ++ r]
  | .longR => ["movzlq_%" ++ toE r ++ ",%" ++ r]
  | .longSignedR => ["movslq_%" ++ toE r ++ ",%" ++ r]
  | .memToR => ["mov____(%" ++ r ++ "),%" ++ r]
  | .nop => ["nop"]
  | .notR => ["not____%" ++ r]
  | .popR0 => ["pop____%" ++ r0]
  | .pushR0 => ["push___%" ++ r0]
  | .r0ToR1Mem => ["mov____%" ++ r0 ++ ",(%" ++ r1 ++ ")"]
  | .rAddR => ["add____%" ++ r ++ ",%" ++ r]
  | .rAddValue v => if v.natAbs < 0x80 then ["add____$i8,%" ++ r] else if v.natAbs < 0x80000000 then ["add____$i32,%" ++ r] else ["mov____$i64,%r15", "add____%r15,%" ++ r]
  | .rToArg => ["push___%" ++ r]
  | .rToByteLabel => ["movb___%" ++ toL r ++ ",0x32"]
  | .rToLabel => ["mov____%" ++ r ++ ",0x32"]
  | .rToLocal id => if (0 - 8 * id).natAbs < 0x80 then ["mov____%" ++ r ++ ",0x8(%rbp)"] else ["mov____%" ++ r ++ ",0x32(%rbp)"]
  | .rToLocalN id n => if (0 - 8 * id + n).natAbs < 0x80 then ["mov____%" ++ r ++ ",0x8(%rbp)"] else ["mov____%" ++ r ++ ",0x32(%rbp)"]
  | .rToLongLabel => ["movl___%" ++ toE r ++ ",0x32"]
  | .rToWordLabel => ["movw___%" ++ toX r ++ ",0x32"]
  | .rAnd v => if 0 ≤ v ∧ v < 0xffffffff then ["and____$i32,%" ++ r] else ["mov____$i64,%r15", "and____%r15,%" ++ r]
  | .rByteMemAdd => ["addb___$i8,(%" ++ r ++ ")"]
  | .rLongMemAdd v => if v.natAbs < 0x80 then ["addl___$i8,(%" ++ r ++ ")"] else if 0 ≤ v ∧ v < 0xffffffff then ["addl___$i32,(%" ++ r ++ ")"] else ["mov____$i64,%r15", "add____%r15,(%" ++ r ++ ")"]
  | .rMemAdd v => if (v).natAbs < 0x80 then ["add____$i8,(%" ++ r ++ ")"] else ["add____$i32,(%" ++ r ++ ")"]
  | .rNegate => ["sete___%" ++ toL r, "movzbq_%" ++ toL r ++ ",%" ++ r]
  | .rWordMemAdd => ["addw___$i8,(%" ++ r ++ ")"]
  | .rZero => ["test___%" ++ r ++ "," ++ "%" ++ r]
  | .r0DivR1 signed => (if r0 = "rax" then [] else ["push___%rax", "mov____%" ++ r0 ++ ",%rax"]) ++ [(if signed then "cqto" else "xor____%rdx,%rdx"), (if signed then "idiv___%" ++ r1 else "div___%" ++ r1)] ++ (if r0 = "rax" then [] else ["mov____%rax,%" ++ r0, "pop____%rax"])
  | .r0ModR1 signed => (if r0 = "rax" then [] else ["push___%rax", "mov____%" ++ r0 ++ ",%rax"]) ++ [(if signed then "cqto" else "xor____%rdx,%rdx"), (if signed then "idiv___%" ++ r1 else "div___%" ++ r1), "mov____%rdx,%" ++ r0]
  | .r0MulR1 => (if r0 = "rax" then [] else ["push___%rax", "mov____%" ++ r0 ++ ",%rax"]) ++ ["mul____%" ++ r1] ++ (if r0 = "rax" then [] else ["mov____%rax,%" ++ r0, "pop____%rax"])
  | .r0AddR1 => ["add____%" ++ r1 ++ ",%" ++ r0]
  | .r0AddValue v => if (v).natAbs < 0x80 then ["add____$i8,%" ++ r0] else ["add____$i32,%" ++ r0]
  | .r0ToR1 => ["mov____%" ++ r0 ++ ",%" ++ r1]
  | .r0AndR1 => ["and____%" ++ r1 ++ ",%" ++ r0]
  | .r0MemToR1Mem => ["mov____(%" ++ r0 ++ "),%" ++ r2, "mov____%" ++ r2 ++ ",(%" ++ r1 ++ ")"]
  | .r0OrR1 => ["or_____%" ++ r1 ++ ",%" ++ r0]
  | .r0SubR1 => ["sub____%" ++ r1 ++ ",%" ++ r0]
  | .r0XorR1 => ["xor____%" ++ r1 ++ ",%" ++ r0]
  | .r0ShlR1 => ["mov____%" ++ r1 ++ ",%rcx", "shl____%cl,%" ++ r0]
  | .r0ShrR1 => ["mov____%" ++ r1 ++ ",%rcx", "shr____%cl,%" ++ r0]
  | .r1ToR0 => ["mov____%" ++ r1 ++ ",%" ++ r0]
  | .r2ToR0 => ["pop____%" ++ r0, "push___%" ++ r0]
  | .ret => ["mov____%rbp,%rsp", "pop____%rbp", "ret"]
  | .returnToR => if r1 = "rax" then [] else ["mov____%rax,%" ++ r1]
  | .shlR => ["shl____$i8,%" ++ r]
  | .swapRStack => ["xchg___%" ++ r ++ ",(%rsp)"]
  | .swapR0R1 => ["xchg___%" ++ r0 ++ ",%" ++ r1]
  | .swapR1Stack => ["xchg___%" ++ r0 ++ ",(%rsp)"]
  | .testR => ["test___%" ++ r ++ ",%" ++ r]
  | .valueToR v => if 0 ≤ v ∧ v < 0xffffffff then ["mov____$i32,%" ++ r] else ["mov____$i64,%" ++ r]
  | .valueToR0 => ["mov____$i32,%" ++ r0]
  | .wordMemToR => ["movzwq_(%" ++ r ++ "),%" ++ r]
  | .wordR => ["movzwq_%" ++ toX r ++ ",%" ++ r]
  | .wordSignedR => ["movswq_%" ++ toX r ++ ",%" ++ r]
  | .xorZf => ["lahf", "xor____$i8,%ah", "sahf"]
  | .zfToR => ["sete___%" ++ toL r, "movzbq_%" ++ toL r ++ ",%" ++ r]
  | .rCmpValue v => if v.natAbs < 0x80 then ["cmp____$i8,%" ++ r] else if 0 ≤ v ∧ v < 0xffffffff then ["cmp____$i32,%" ++ r] else [""]

/-- With `get-r`, `get-r0`, `get-r1`: /repo/module/mescc/as.scm:67-74. -/
def Fn64.lines (al rs : List String) (f : Fn64) : List String :=
  f.names (if al = [] then rs.headD "" else al.headD "") (al.getD 1 "") (al.headD "") (rs.headD "")

/-- How many registers have to be allocated: otherwise `car` or `cadr` of `get-r0`, `get-r1` or `return->r` is an error. -/
def Fn64.needs : Fn64 → Nat
  | .returnToR => 1
  | .byteR0ToR1Mem
  | .wordR0ToR1Mem
  | .longR0ToR1Mem
  | .byteR0MemToR1Mem
  | .wordR0MemToR1Mem
  | .longR0MemToR1Mem
  | .popR0
  | .pushR0
  | .r0ToR1Mem
  | .r0DivR1 _
  | .r0ModR1 _
  | .r0MulR1
  | .r0AddR1
  | .r0AddValue _
  | .r0ToR1
  | .r0AndR1
  | .r0MemToR1Mem
  | .r0OrR1
  | .r0SubR1
  | .r0XorR1
  | .r0ShlR1
  | .r0ShrR1
  | .r1ToR0
  | .r2ToR0
  | .swapR0R1
  | .swapR1Stack
  | .valueToR0 => 2
  | _ => 0

/-- The registers of an `<info>`. -/
structure Alloc where
  allocated : List String
  registers : List String
  pushed : Nat

/-- `allocate-register`, with `%reduced-register-count` 2, without the text it adds: /repo/module/mescc/compile.scm:48, 667-675. -/
def Alloc.allocate (i : Alloc) : Option Alloc :=
  if i.allocated.length < 2 then
    match i.registers with
    | [] => none
    | r :: rs => some { i with allocated := r :: i.allocated, registers := rs }
  else some { i with pushed := i.pushed + 1 }

/-- `free-register`: /repo/module/mescc/compile.scm:677-685. -/
def Alloc.free (i : Alloc) : Option Alloc :=
  if i.pushed = 0 then
    match i.allocated with
    | [] => none
    | r :: rs => some { i with allocated := rs, registers := r :: i.registers }
  else some { i with pushed := i.pushed - 1 }

/-- What a call does after its arguments; what was allocated before is put back after it: /repo/module/mescc/compile.scm:1028, 1040. -/
def Alloc.call (i : Alloc) : Alloc := ⟨[], i.allocated.reverse ++ i.registers, 0⟩

end Mes.Mescc
