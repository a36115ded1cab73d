import Verif.Spec.X86

/-
The definitions of /repo/lib/x86-mes/x86.M1:22-218, in the order of the file: a mnemonic and the bytes that M1 puts in its
place.
-/
namespace Mes.Mescc

/-- /repo/lib/x86-mes/x86.M1:22-218 -/
def defines : List (String × List X86.Byte8) := [
  ("add____$i32,%eax", [0x05]),
  ("add____$i32,%ebx", [0x81, 0xc3]),
  ("add____$i32,(%eax)", [0x81, 0x00]),
  ("add____$i32,(%ebx)", [0x81, 0x03]),
  ("add____$i32,0x32(%eax)", [0x81, 0x80]),
  ("add____$i32,0x32(%ebp)", [0x81, 0x85]),
  ("add____$i8,%eax", [0x83, 0xc0]),
  ("add____$i8,%ebx", [0x83, 0xc3]),
  ("add____$i8,%esp", [0x83, 0xc4]),
  ("add____$i8,(%eax)", [0x83, 0x00]),
  ("add____$i8,(%ebx)", [0x83, 0x03]),
  ("add____$i8,0x32", [0x83, 0x05]),
  ("add____$i8,0x32(%eax)", [0x83, 0x80]),
  ("add____$i8,0x32(%ebp)", [0x83, 0x85]),
  ("add____$i8,0x8(%eax)", [0x83, 0x40]),
  ("add____$i8,0x8(%ebp)", [0x83, 0x45]),
  ("add____%eax,%eax", [0x01, 0xc0]),
  ("add____%ebp,%eax", [0x01, 0xe8]),
  ("add____%ebx,%eax", [0x01, 0xd8]),
  ("add____%ebx,%ebx", [0x01, 0xdb]),
  ("addb___$i8,(%eax)", [0x80, 0x00]),
  ("addb___$i8,(%ebx)", [0x80, 0x03]),
  ("addw___$i8,(%eax)", [0x66, 0x81, 0x00]),
  ("addw___$i8,(%ebx)", [0x66, 0x81, 0x03]),
  ("and____$i32,%eax", [0x25]),
  ("and____$i32,%ebx", [0x81, 0xe3]),
  ("and____%ebx,%eax", [0x21, 0xd8]),
  ("call32", [0xe8]),
  ("call___*%eax", [0xff, 0xd0]),
  ("call___*%ebx", [0xff, 0xd3]),
  ("cltd", [0x99]),
  ("cmp____$0x32,%eax", [0x3d]),
  ("cmp____$i32,%eax", [0x3d]),
  ("cmp____$i8,%eax", [0x83, 0xf8]),
  ("cmp____$i8,%ebx", [0x81, 0xfb]),
  ("div___%ebx", [0xf7, 0xf3]),
  ("hlt", [0xf4]),
  ("idiv___%ebx", [0xf7, 0xfb]),
  ("int", [0xcd]),
  ("int____$0x80", [0xcd, 0x80]),
  ("ja32", [0x0f, 0x87]),
  ("jae32", [0x0f, 0x83]),
  ("jb32", [0x0f, 0x82]),
  ("jbe32", [0x0f, 0x86]),
  ("je32", [0x0f, 0x84]),
  ("je8", [0x74]),
  ("jg32", [0x0f, 0x8f]),
  ("jge32", [0x0f, 0x8d]),
  ("jl32", [0x0f, 0x8c]),
  ("jle32", [0x0f, 0x8e]),
  ("jmp32", [0xe9]),
  ("jmp____*%ebx", [0xff, 0xe3]),
  ("jne32", [0x0f, 0x85]),
  ("lahf", [0x9f]),
  ("lea____0x32(%ebp),%eax", [0x8d, 0x85]),
  ("lea____0x8(%ebp),%eax", [0x8d, 0x45]),
  ("leave", [0xc9]),
  ("mov____$i32,%eax", [0xb8]),
  ("mov____$i32,%ebx", [0xbb]),
  ("mov____$i32,(%eax)", [0xc7, 0x00]),
  ("mov____$i32,0x32", [0xc7, 0x05]),
  ("mov____$i32,0x8(%eax)", [0xc7, 0x40]),
  ("mov____$i32,0x8(%ebp)", [0xc7, 0x45]),
  ("mov____$i8,%al", [0xb0]),
  ("mov____$i8,%eax", [0xb0]),
  ("mov____%al,(%ebx)", [0x88, 0x03]),
  ("mov____%al,0x8(%ebp)", [0x88, 0x45]),
  ("mov____%ax,(%ebx)", [0x66, 0x89, 0x03]),
  ("mov____%ax,0x8(%ebp)", [0x66, 0x89, 0x45]),
  ("mov____%bx,%bx", [0x66, 0x89, 0xdb]),
  ("mov____%cl,(%ebx)", [0x8a, 0x08]),
  ("mov____%cx,(%ebx)", [0x66, 0x8b, 0x08]),
  ("mov____%dl,(%eax)", [0x88, 0x10]),
  ("mov____%dl,0x8(%eax)", [0x88, 0x50]),
  ("mov____%eax,%ebx", [0x89, 0xc3]),
  ("mov____%eax,%ecx", [0x89, 0xc1]),
  ("mov____%eax,(%ebx)", [0x89, 0x03]),
  ("mov____%eax,0x32", [0xa3]),
  ("mov____%eax,0x32(%ebp)", [0x89, 0x85]),
  ("mov____%eax,0x8(%ebp)", [0x89, 0x45]),
  ("mov____%ebp,%eax", [0x89, 0xe8]),
  ("mov____%ebp,%ebx", [0x89, 0xeb]),
  ("mov____%ebx,%eax", [0x89, 0xd8]),
  ("mov____%ebx,%ecx", [0x89, 0xd9]),
  ("mov____%ebx,0x32", [0x89, 0x1d]),
  ("mov____%ebx,0x32(%ebp)", [0x89, 0x9d]),
  ("mov____%ebx,0x8(%ebp)", [0x89, 0x5d]),
  ("mov____%ecx,(%ebx)", [0x89, 0x0b]),
  ("mov____%edi,%ebp", [0x89, 0xfd]),
  ("mov____%edx,%eax", [0x89, 0xd0]),
  ("mov____%edx,%ebx", [0x89, 0xd3]),
  ("mov____%esp,%ebp", [0x89, 0xe5]),
  ("mov____%esp,%edi", [0x89, 0xe7]),
  ("mov____(%eax),%cl", [0x8a, 0x08]),
  ("mov____(%eax),%cx", [0x66, 0x8b, 0x08]),
  ("mov____(%eax),%eax", [0x8b, 0x00]),
  ("mov____(%eax),%ecx", [0x8b, 0x08]),
  ("mov____(%ebx),%ebx", [0x8b, 0x1b]),
  ("mov____0x32(%eax),%eax", [0x8b, 0x80]),
  ("mov____0x32(%eax),%ebx", [0x8b, 0x98]),
  ("mov____0x32(%ebp),%eax", [0x8b, 0x85]),
  ("mov____0x32(%ebp),%ebx", [0x8b, 0x9d]),
  ("mov____0x32,%eax", [0xa1]),
  ("mov____0x32,%ebx", [0x8b, 0x1d]),
  ("mov____0x8(%eax),%eax", [0x8b, 0x40]),
  ("mov____0x8(%eax),%ebx", [0x8b, 0x58]),
  ("mov____0x8(%ebp),%eax", [0x8b, 0x45]),
  ("mov____0x8(%ebp),%ebp", [0x8b, 0x6d]),
  ("mov____0x8(%ebp),%ebx", [0x8b, 0x5d]),
  ("mov____0x8(%ebp),%ecx", [0x8b, 0x4d]),
  ("mov____0x8(%ebp),%edi", [0x8b, 0x7d]),
  ("mov____0x8(%ebp),%edx", [0x8b, 0x55]),
  ("mov____0x8(%ebp),%esi", [0x8b, 0x75]),
  ("mov____0x8(%ebp),%esp", [0x8b, 0x65]),
  ("movb___%al,0x32", [0xa2]),
  ("movb___%bl,0x32", [0x88, 0x1d]),
  ("movsbl_%al,%eax", [0x0f, 0xbe, 0xc0]),
  ("movsbl_%bl,%ebx", [0x0f, 0xbe, 0xdb]),
  ("movswl_%ax,%eax", [0x0f, 0xbf, 0xc0]),
  ("movswl_%bx,%ebx", [0x0f, 0xbf, 0xdb]),
  ("movw___%ax,0x32", [0x66, 0xa3]),
  ("movw___%bx,0x32", [0x66, 0x89, 0x1d]),
  ("movzbl_%al,%eax", [0x0f, 0xb6, 0xc0]),
  ("movzbl_%bl,%ebx", [0x0f, 0xb6, 0xdb]),
  ("movzbl_(%eax),%eax", [0x0f, 0xb6, 0x00]),
  ("movzbl_(%ebx),%ebx", [0x0f, 0xb6, 0x1b]),
  ("movzbl_0x32(%eax),%eax", [0x0f, 0xb6, 0x80]),
  ("movzbl_0x8(%eax),%eax", [0x0f, 0xb6, 0x40]),
  ("movzbl_0x8(%ebp),%eax", [0x0f, 0xb6, 0x45]),
  ("movzwl_%ax,%eax", [0x0f, 0xb7, 0xc0]),
  ("movzwl_%bx,%ebx", [0x0f, 0xb7, 0xdb]),
  ("movzwl_(%eax),%eax", [0x0f, 0xb7, 0x00]),
  ("movzwl_(%ebx),%ebx", [0x0f, 0xb7, 0x1b]),
  ("movzwl_0x32(%eax),%eax", [0x0f, 0xb7, 0x80]),
  ("movzwl_0x32(%ebp),%eax", [0x0f, 0xb7, 0x85]),
  ("movzwl_0x8(%eax),%eax", [0x0f, 0xb7, 0x40]),
  ("mul____%ebx", [0xf7, 0xe3]),
  ("mul_____%ebx", [0xf7, 0xe3]),
  ("nop", [0x90]),
  ("not____%eax", [0xf7, 0xd0]),
  ("not____%ebx", [0xf7, 0xd3]),
  ("or_____%ebx,%eax", [0x09, 0xd8]),
  ("pop____%eax", [0x58]),
  ("pop____%ebx", [0x5b]),
  ("pop____%edx", [0x5a]),
  ("push___$i32", [0x68]),
  ("push___%eax", [0x50]),
  ("push___%ebp", [0x55]),
  ("push___%ebx", [0x53]),
  ("push___%edx", [0x52]),
  ("push___(%eax)", [0xff, 0x30]),
  ("push___0x32(%ebp)", [0xff, 0xb5]),
  ("push___0x8(%ebp)", [0xff, 0x75]),
  ("ret", [0xc3]),
  ("sahf", [0x9e]),
  ("seta___%al", [0x0f, 0x97, 0xc0]),
  ("seta___%bl", [0x0f, 0x97, 0xc3]),
  ("setae__%al", [0x0f, 0x93, 0xc0]),
  ("setae__%bl", [0x0f, 0x93, 0xc3]),
  ("setb___%al", [0x0f, 0x92, 0xc0]),
  ("setb___%bl", [0x0f, 0x92, 0xc3]),
  ("setbe__%al", [0x0f, 0x96, 0xc0]),
  ("setbe__%bl", [0x0f, 0x96, 0xc3]),
  ("sete___%al", [0x0f, 0x94, 0xc0]),
  ("sete___%bl", [0x0f, 0x94, 0xc3]),
  ("setg___%al", [0x0f, 0x9f, 0xc0]),
  ("setg___%bl", [0x0f, 0x9f, 0xc3]),
  ("setge__%al", [0x0f, 0x9d, 0xc0]),
  ("setge__%bl", [0x0f, 0x9d, 0xc3]),
  ("setl___%al", [0x0f, 0x9c, 0xc0]),
  ("setl___%bl", [0x0f, 0x9c, 0xc3]),
  ("setle__%al", [0x0f, 0x9e, 0xc0]),
  ("setle__%bl", [0x0f, 0x9e, 0xc3]),
  ("setne__%al", [0x0f, 0x95, 0xc0]),
  ("setne__%bl", [0x0f, 0x95, 0xc3]),
  ("shl____$i8,%eax", [0xc1, 0xe0]),
  ("shl____$i8,%ebx", [0xc1, 0xe3]),
  ("shl____%cl,%eax", [0xd3, 0xe0]),
  ("shl____%cl,%ebx", [0xd3, 0xe3]),
  ("shr____%cl,%eax", [0xd3, 0xe8]),
  ("sub____$8,%esp", [0x83, 0xec]),
  ("sub____$i32,%esp", [0x81, 0xec]),
  ("sub____%al,%dl", [0x28, 0xd0]),
  ("sub____%dl,%al", [0x28, 0xc2]),
  ("sub____%ebx,%eax", [0x29, 0xd8]),
  ("test___%al,%al", [0x84, 0xc0]),
  ("test___%eax,%eax", [0x85, 0xc0]),
  ("test___%ebx,%ebx", [0x85, 0xdb]),
  ("xchg___%eax,%ebx", [0x93]),
  ("xchg___%eax,(%esp)", [0x87, 0x04, 0x24]),
  ("xchg___%ebx,(%esp)", [0x87, 0x1c, 0x24]),
  ("xor____$i32,%eax", [0x35]),
  ("xor____$i8,%ah", [0x80, 0xf4]),
  ("xor____%eax,%eax", [0x31, 0xc0]),
  ("xor____%ebx,%eax", [0x31, 0xd8]),
  ("xor____%ebx,%ebx", [0x31, 0xdb]),
  ("xor____%edx,%edx", [0x31, 0xd2])
]

end Mes.Mescc
