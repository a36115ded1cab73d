import Verif.Model.X64As
/- Local variables for x86_64: /repo/module/mescc/x86_64/as.scm. -/
namespace Mes.Mescc

/-- `x86_64:r->local`: /repo/module/mescc/x86_64/as.scm:74-79. -/
def rToLocal64 (i : Info) (id : Int) : List Line64 :=
  [if (0 - 8 * id).natAbs < 0x80 then .ins ("mov____%" ++ getR i ++ ",0x8(%rbp)") [.imm1 (0 - 8 * id)]
   else .ins ("mov____%" ++ getR i ++ ",0x32(%rbp)") [.imm4 (0 - 8 * id)]]

/-- `x86_64:local->r`: /repo/module/mescc/x86_64/as.scm:106-110. -/
def localToR64 (i : Info) (id : Int) : List Line64 :=
  [if (0 - 8 * id).natAbs < 0x80 then .ins ("mov____0x8(%rbp),%" ++ getR i) [.imm1 (0 - 8 * id)]
   else .ins ("mov____0x32(%rbp),%" ++ getR i) [.imm4 (0 - 8 * id)]]

/-- `x86_64:r->local+n`: /repo/module/mescc/x86_64/as.scm:171-175. -/
def rToLocalN64 (i : Info) (id n : Int) : List Line64 :=
  [if (0 - 8 * id + n).natAbs < 0x80 then .ins ("mov____%" ++ getR i ++ ",0x8(%rbp)") [.imm1 (0 - 8 * id + n)]
   else .ins ("mov____%" ++ getR i ++ ",0x32(%rbp)") [.imm4 (0 - 8 * id + n)]]

end Mes.Mescc
