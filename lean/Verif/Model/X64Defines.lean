import Verif.Spec.X86

/-
The definitions of /repo/lib/x86_64-mes/x86_64.M1:24-235, in the order of the file: a mnemonic and the bytes that M1 puts in its
place.  The definitions in comments, and the two numbers of system calls at the end, are left out.
-/
namespace Mes.Mescc

/-- /repo/lib/x86_64-mes/x86_64.M1:24-235 -/
def defines64 : List (String × List X86.Byte8) := [
  ("add____$i32,%rax", [0x48, 0x05]),
  ("add____$i32,%rbp", [0x48, 0x81, 0xc5]),
  ("add____$i32,%rdi", [0x48, 0x81, 0xc7]),
  ("add____$i32,(%rax)", [0x81, 0x00]),
  ("add____$i32,0x32(%rbp)", [0x81, 0x85]),
  ("add____$i8,%rax", [0x48, 0x83, 0xc0]),
  ("add____$i8,%rdi", [0x48, 0x83, 0xc7]),
  ("add____$i8,%rsp", [0x48, 0x83, 0xc4]),
  ("add____$i8,(%rax)", [0x83, 0x00]),
  ("add____$i8,(%rdi)", [0x83, 0x07]),
  ("add____$i8,0x8(%rbp)", [0x83, 0x45]),
  ("add____%r15,(%rax)", [0x4c, 0x01, 0x38]),
  ("add____%r15,(%rdi)", [0x4c, 0x01, 0x3f]),
  ("add____%rax,%rax", [0x48, 0x01, 0xc0]),
  ("add____%rbp,%rax", [0x48, 0x01, 0xe8]),
  ("add____%rdi,%rax", [0x48, 0x01, 0xf8]),
  ("add____%rdi,%rdi", [0x48, 0x01, 0xff]),
  ("addb___$i8,(%rax)", [0x80, 0x00]),
  ("addb___$i8,(%rdi)", [0x80, 0x07]),
  ("addl___$i32,(%rax)", [0x81, 0x00]),
  ("addl___$i32,(%rdi)", [0x81, 0x07]),
  ("addl___$i8,(%rax)", [0x83, 0x00]),
  ("addl___$i8,(%rdi)", [0x83, 0x07]),
  ("addw___$i8,(%rax)", [0x66, 0x81, 0x00]),
  ("addw___$i8,(%rdi)", [0x66, 0x81, 0x07]),
  ("and____$i32,%rdi", [0x48, 0x81, 0xe7]),
  ("and____%r15,%rax", [0x4c, 0x21, 0xf8]),
  ("and____%r15,%rdi", [0x4c, 0x21, 0xff]),
  ("and____%rdi,%rax", [0x48, 0x21, 0xf8]),
  ("call32", [0xe8]),
  ("call___*%rax", [0xff, 0xd0]),
  ("call___*%rdi", [0xff, 0xd7]),
  ("cmp____$i32,%rax", [0x48, 0x3d]),
  ("cmp____$i8,%rax", [0x48, 0x83, 0xf8]),
  ("cmp____$i8,%rdi", [0x48, 0x83, 0xff]),
  ("cmp____%r15,%rax", [0x4c, 0x39, 0xf8]),
  ("cmp____%r15,%rdi", [0x4c, 0x39, 0xff]),
  ("cqto", [0x48, 0x99]),
  ("div___%rdi", [0x48, 0xf7, 0xf7]),
  ("hlt", [0xf4]),
  ("idiv___%rdi", [0x48, 0xf7, 0xff]),
  ("ja32", [0x0f, 0x87]),
  ("jae32", [0x0f, 0x83]),
  ("jb32", [0x0f, 0x82]),
  ("jbe32", [0x0f, 0x86]),
  ("je32", [0x0f, 0x84]),
  ("je8", [0x74]),
  ("jg32", [0x0f, 0x8f]),
  ("jge32", [0x0f, 0x8d]),
  ("jl32", [0x0f, 0x8c]),
  ("jle32", [0x0f, 0x8e]),
  ("jmp32", [0xe9]),
  ("jmp____*%rbx", [0xff, 0xe3]),
  ("jne32", [0x0f, 0x85]),
  ("lahf", [0x9f]),
  ("mov____$i32,%rax", [0x48, 0xc7, 0xc0]),
  ("mov____$i32,%rdi", [0x48, 0xc7, 0xc7]),
  ("mov____$i32,0x8(%rbp)", [0xc7, 0x45]),
  ("mov____$i64,%r15", [0x49, 0xbf]),
  ("mov____$i64,%rax", [0x48, 0xb8]),
  ("mov____$i64,%rdi", [0x48, 0xbf]),
  ("mov____$i8,%al", [0xb0]),
  ("mov____$i8,%rax", [0xb0]),
  ("mov____%al,(%rdi)", [0x88, 0x07]),
  ("mov____%al,0x32(%rbp)", [0x88, 0x85]),
  ("mov____%al,0x8(%rbp)", [0x88, 0x45]),
  ("mov____%ax,(%rdi)", [0x66, 0x89, 0x07]),
  ("mov____%ax,0x8(%rbp)", [0x66, 0x89, 0x45]),
  ("mov____%eax,%eax", [0x89, 0xc0]),
  ("mov____%eax,%rax", [0x89, 0xc0]),
  ("mov____%eax,(%rdi)", [0x89, 0x07]),
  ("mov____%eax,0x32(%rbp)", [0x89, 0x85]),
  ("mov____%eax,0x8(%rbp)", [0x89, 0x45]),
  ("mov____%edi,%edi", [0x89, 0xff]),
  ("mov____%edi,%rdi", [0x89, 0xff]),
  ("mov____%edi,0x32(%rbp)", [0x89, 0xbd]),
  ("mov____%edi,0x8(%rbp)", [0x89, 0x7d]),
  ("mov____%esi,%eax", [0x89, 0xf0]),
  ("mov____%esi,(%rdi)", [0x89, 0x37]),
  ("mov____%r8,%rdi", [0x4c, 0x89, 0xc7]),
  ("mov____%rax,%rax", [0x48, 0x89, 0xc0]),
  ("mov____%rax,%rdi", [0x48, 0x89, 0xc7]),
  ("mov____%rax,(%rdi)", [0x48, 0x89, 0x07]),
  ("mov____%rax,0x32", [0x48, 0x89, 0x04, 0x25]),
  ("mov____%rax,0x32(%rbp)", [0x48, 0x89, 0x85]),
  ("mov____%rax,0x8(%rbp)", [0x48, 0x89, 0x45]),
  ("mov____%rax,0x8(%rdi)", [0x48, 0x89, 0x47]),
  ("mov____%rbp,%rax", [0x48, 0x89, 0xe8]),
  ("mov____%rbp,%rdi", [0x48, 0x89, 0xef]),
  ("mov____%rbp,%rsp", [0x48, 0x89, 0xec]),
  ("mov____%rbp,0x8(%rbp)", [0x48, 0x89, 0x6d]),
  ("mov____%rdi,%r8", [0x49, 0x89, 0xf8]),
  ("mov____%rdi,%rax", [0x48, 0x89, 0xf8]),
  ("mov____%rdi,%rcx", [0x48, 0x89, 0xf9]),
  ("mov____%rdi,%rdi", [0x48, 0x89, 0xff]),
  ("mov____%rdi,0x32", [0x48, 0x89, 0x3c, 0x25]),
  ("mov____%rdi,0x32(%rbp)", [0x48, 0x89, 0xbd]),
  ("mov____%rdi,0x8(%rbp)", [0x48, 0x89, 0x7d]),
  ("mov____%rdx,%rax", [0x48, 0x89, 0xd0]),
  ("mov____%rdx,%rdi", [0x48, 0x89, 0xd7]),
  ("mov____%rsi,(%rdi)", [0x48, 0x89, 0x37]),
  ("mov____%rsp,%rbp", [0x48, 0x89, 0xe5]),
  ("mov____(%rax),%eax", [0x8b, 0x00]),
  ("mov____(%rax),%esi", [0x8b, 0x30]),
  ("mov____(%rax),%rax", [0x48, 0x8b, 0x00]),
  ("mov____(%rax),%rsi", [0x48, 0x8b, 0x30]),
  ("mov____(%rdi),%edi", [0x8b, 0x3f]),
  ("mov____(%rdi),%rdi", [0x48, 0x8b, 0x3f]),
  ("mov____0x32(%rbp),%rax", [0x48, 0x8b, 0x85]),
  ("mov____0x32(%rbp),%rdi", [0x48, 0x8b, 0xbd]),
  ("mov____0x32,%rax", [0x48, 0x8b, 0x04, 0x25]),
  ("mov____0x32,%rdi", [0x48, 0x8b, 0x3c, 0x25]),
  ("mov____0x8(%rbp),%eax", [0x8b, 0x45]),
  ("mov____0x8(%rbp),%r10", [0x4c, 0x8b, 0x55]),
  ("mov____0x8(%rbp),%r8", [0x4c, 0x8b, 0x45]),
  ("mov____0x8(%rbp),%rax", [0x48, 0x8b, 0x45]),
  ("mov____0x8(%rbp),%rbp", [0x48, 0x8b, 0x6d]),
  ("mov____0x8(%rbp),%rbx", [0x48, 0x8b, 0x5d]),
  ("mov____0x8(%rbp),%rcx", [0x48, 0x8b, 0x4d]),
  ("mov____0x8(%rbp),%rdi", [0x48, 0x8b, 0x7d]),
  ("mov____0x8(%rbp),%rdx", [0x48, 0x8b, 0x55]),
  ("mov____0x8(%rbp),%rsi", [0x48, 0x8b, 0x75]),
  ("mov____0x8(%rbp),%rsp", [0x48, 0x8b, 0x65]),
  ("mov____0x8(%rdi),%rax", [0x48, 0x8b, 0x47]),
  ("mov____0x8(%rdi),%rbp", [0x48, 0x8b, 0x6f]),
  ("mov____0x8(%rdi),%rsp", [0x48, 0x8b, 0x67]),
  ("movl___%eax,0x32", [0x89, 0x04, 0x25]),
  ("movl___%edi,0x32", [0x89, 0x3c, 0x25]),
  ("movl___%esi,(%rdi)", [0x89, 0x37]),
  ("movl___(%rax),%esi", [0x8b, 0x30]),
  ("movsbq_%al,%rax", [0x48, 0x0f, 0xbe, 0xc0]),
  ("movsbq_%dil,%rdi", [0x48, 0x0f, 0xbe, 0xff]),
  ("movsbq_(%rax),%rax", [0x48, 0x0f, 0xbe, 0x00]),
  ("movsbq_(%rdi),%rdi", [0x48, 0x0f, 0xbe, 0x3f]),
  ("movslq_%eax,%rax", [0x48, 0x63, 0xc0]),
  ("movslq_%edi,%rdi", [0x48, 0x63, 0xff]),
  ("movslq_(%rax),%rax", [0x48, 0x63, 0x00]),
  ("movslq_(%rdi),%rdi", [0x48, 0x63, 0x3f]),
  ("movswq_%ax,%rax", [0x48, 0x0f, 0xbf, 0xc0]),
  ("movswq_%di,%rdi", [0x48, 0x0f, 0xbf, 0xff]),
  ("movswq_(%rax),%rax", [0x48, 0x0f, 0xbf, 0x00]),
  ("movswq_(%rdi),%rdi", [0x48, 0x0f, 0xbf, 0x3f]),
  ("movw___%ax,0x32", [0x66, 0x89, 0x04, 0x25]),
  ("movw___%di,0x32", [0x66, 0x89, 0x3c, 0x25]),
  ("movz___(%rax),%rax", [0x48, 0x0f, 0xb6, 0x00]),
  ("movzbq_%al,%rax", [0x48, 0x0f, 0xb6, 0xc0]),
  ("movzbq_%dil,%rdi", [0x48, 0x0f, 0xb6, 0xff]),
  ("movzbq_(%rax),%rax", [0x48, 0x0f, 0xb6, 0x00]),
  ("movzbq_(%rdi),%rdi", [0x48, 0x0f, 0xb6, 0x3f]),
  ("movzlq_%eax,%rax", [0x89, 0xc0]),
  ("movzlq_%edi,%rdi", [0x89, 0xff]),
  ("movzlq_(%rax),%rax", [0x8b, 0x00]),
  ("movzlq_(%rdi),%rdi", [0x8b, 0x3f]),
  ("movzwq_%ax,%rax", [0x48, 0x0f, 0xb7, 0xc0]),
  ("movzwq_%di,%rdi", [0x48, 0x0f, 0xb7, 0xff]),
  ("movzwq_(%rax),%rax", [0x48, 0x0f, 0xb7, 0x00]),
  ("movzwq_(%rdi),%rdi", [0x48, 0x0f, 0xb7, 0x3f]),
  ("mul____%rdi", [0x48, 0xf7, 0xe7]),
  ("nop", [0x90]),
  ("not____%rax", [0x48, 0xf7, 0xd0]),
  ("not____%rdi", [0x48, 0xf7, 0xd7]),
  ("or_____%rdi,%rax", [0x48, 0x09, 0xf8]),
  ("pop____%rax", [0x58]),
  ("pop____%rbp", [0x5d]),
  ("pop____%rdi", [0x5f]),
  ("pop____%rdx", [0x5a]),
  ("push___$i32", [0x68]),
  ("push___%r15", [0x41, 0x57]),
  ("push___%rax", [0x50]),
  ("push___%rbp", [0x55]),
  ("push___%rdi", [0x57]),
  ("push___%rdx", [0x52]),
  ("ret", [0xc3]),
  ("sahf", [0x9e]),
  ("seta___%al", [0x0f, 0x97, 0xc0]),
  ("seta___%dil", [0x40, 0x0f, 0x97, 0xc7]),
  ("setae__%al", [0x0f, 0x93, 0xc0]),
  ("setae__%dil", [0x40, 0x0f, 0x93, 0xc7]),
  ("setb___%al", [0x0f, 0x92, 0xc0]),
  ("setb___%dil", [0x40, 0x0f, 0x92, 0xc7]),
  ("setbe__%al", [0x0f, 0x96, 0xc0]),
  ("setbe__%dil", [0x40, 0x0f, 0x96, 0xc7]),
  ("sete___%al", [0x0f, 0x94, 0xc0]),
  ("sete___%dil", [0x40, 0x0f, 0x94, 0xc7]),
  ("setg___%al", [0x0f, 0x9f, 0xc0]),
  ("setg___%dil", [0x40, 0x0f, 0x9f, 0xc7]),
  ("setge__%al", [0x0f, 0x9d, 0xc0]),
  ("setge__%dil", [0x40, 0x0f, 0x9d, 0xc7]),
  ("setl___%al", [0x0f, 0x9c, 0xc0]),
  ("setl___%dil", [0x40, 0x0f, 0x9c, 0xc7]),
  ("setle__%al", [0x0f, 0x9e, 0xc0]),
  ("setle__%dil", [0x40, 0x0f, 0x9e, 0xc7]),
  ("setne__%al", [0x0f, 0x95, 0xc0]),
  ("shl____$i8,%rax", [0x48, 0xc1, 0xe0]),
  ("shl____$i8,%rdi", [0x48, 0xc1, 0xe7]),
  ("shl____%cl,%rax", [0x48, 0xd3, 0xe0]),
  ("shl____%cl,%rdi", [0x48, 0xd3, 0xe7]),
  ("shr____%cl,%rax", [0x48, 0xd3, 0xe8]),
  ("sub____$i32,%rbp", [0x48, 0x81, 0xed]),
  ("sub____$i32,%rsp", [0x48, 0x81, 0xec]),
  ("sub____%rdi,%rax", [0x48, 0x29, 0xf8]),
  ("syscall", [0x0f, 0x05]),
  ("test___%al,%al", [0x84, 0xc0]),
  ("test___%rax,%rax", [0x48, 0x85, 0xc0]),
  ("test___%rdi,%rdi", [0x48, 0x85, 0xff]),
  ("xchg___%rax,%rdi", [0x48, 0x97]),
  ("xchg___%rax,(%rsp)", [0x48, 0x87, 0x04, 0x24]),
  ("xchg___%rdi,(%rsp)", [0x48, 0x87, 0x3c, 0x24]),
  ("xor____$i8,%ah", [0x80, 0xf4]),
  ("xor____%rax,%rax", [0x48, 0x31, 0xc0]),
  ("xor____%rdi,%rax", [0x48, 0x31, 0xf8]),
  ("xor____%rdx,%rdx", [0x48, 0x31, 0xd2])]

end Mes.Mescc
