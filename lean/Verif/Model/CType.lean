import Verif.Model.Res
/- Model of /repo/lib/ctype/*.c.  Arguments are `int` values; results are the C truth values. -/
namespace Mes.C

/-- /repo/lib/ctype/isdigit.c:23-27 -/
def isdigit (c : Int) : Bool := decide (c ≥ 48) && decide (c ≤ 57)
/-- /repo/lib/ctype/islower.c:23-27 -/
def islower (c : Int) : Bool := decide (c ≥ 97) && decide (c ≤ 122)
/-- /repo/lib/ctype/isupper.c:23-27 -/
def isupper (c : Int) : Bool := decide (c ≥ 65) && decide (c ≤ 90)
/-- /repo/lib/ctype/isalpha.c:23-27 -/
def isalpha (c : Int) : Bool := islower c || isupper c
/-- /repo/lib/ctype/isalnum.c:23-27 -/
def isalnum (c : Int) : Bool := isdigit c || isalpha c
/-- /repo/lib/ctype/isascii.c:23-27 -/
def isascii (c : Int) : Bool := decide (c ≥ 0) && decide (c ≤ 127)
/-- /repo/lib/ctype/iscntrl.c:23-27 -/
def iscntrl (c : Int) : Bool := decide (c ≥ 0) && decide (c < 32)
/-- /repo/lib/ctype/isgraph.c:23-27 -/
def isgraph (c : Int) : Bool := decide (c > 32) && decide (c < 127)
/-- /repo/lib/ctype/isprint.c:23-27 -/
def isprint (c : Int) : Bool := decide (c ≥ 32) && decide (c < 127)
/-- /repo/lib/ctype/isspace.c:23-27 -/
def isspace (c : Int) : Bool :=
  decide (c = 9) || decide (c = 10) || decide (c = 11) || decide (c = 12) || decide (c = 13) || decide (c = 32)
/-- /repo/lib/ctype/isxdigit.c:24-28 -/
def isxdigit (c : Int) : Bool := isdigit c || (decide (c ≥ 97) && decide (c ≤ 102))
/-- /repo/lib/ctype/ispunct.c:23-27 -/
def ispunct (c : Int) : Bool := isprint c && !isspace c && !isalnum c
/-- /repo/lib/ctype/tolower.c:23-29 -/
def tolower (c : Int) : Int := if isupper c then c + (97 - 65) else c
/-- /repo/lib/ctype/toupper.c:23-29 -/
def toupper (c : Int) : Int := if islower c then c - (97 - 65) else c

/-- /repo/lib/ctype/isnumber.c:23-34; for a base other than 2, 8, 10, 16 the function ends without a `return`, and
using the value is undefined. -/
def isnumber (c base : Int) : Res Bool :=
  if base = 2 then .ok (decide (c ≥ 48) && decide (c ≤ 49))
  else if base = 8 then .ok (decide (c ≥ 48) && decide (c ≤ 55))
  else if base = 10 then .ok (isdigit c)
  else if base = 16 then .ok (isxdigit c)
  else .ub

end Mes.C
