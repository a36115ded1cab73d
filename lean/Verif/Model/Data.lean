import Verif.Model.Heap
import Verif.Model.CString
/-
Model of the data primitives: /repo/src/core.c, /repo/src/lib.c, /repo/src/vector.c, /repo/src/struct.c,
/repo/src/string.c, /repo/src/hash.c.

Loops over lists take a `fuel` argument, because a list in memory can be circular; running out of fuel is `loop`.
`error (key, …)` (/repo/src/core.c:148-162) is `err key`: the handler `throw` of the Scheme program is assumed not to
return.  The cells allocated for the error object are not modelled.
-/
namespace Mes
open Res

/-! ### Lists: core.c -/

/-- `car`: /repo/src/core.c:49-57. -/
def carP (s : St) (x : Int) : Res Int := do
  let c ← s.rd x
  if c.tag ≠ .pair then err .notAPair else ok c.car
/-- `cdr`: /repo/src/core.c:59-67. -/
def cdrP (s : St) (x : Int) : Res Int := do
  let c ← s.rd x
  if c.tag ≠ .pair then err .notAPair else ok c.cdr

/-- `set_car_x`: /repo/src/eval-apply.c:105-112. -/
def setCarX (s : St) (x e : Int) : Res (Int × St) := do
  let c ← s.rd x
  if c.tag ≠ .pair then err .notAPair
  else do
    let s ← s.setCar x e
    ok (c_unspecified, s)

/-- `set_cdr_x`: /repo/src/eval-apply.c:114-121. -/
def setCdrX (s : St) (x e : Int) : Res (Int × St) := do
  let c ← s.rd x
  if c.tag ≠ .pair then err .notAPair
  else do
    let s ← s.setCdr x e
    ok (c_unspecified, s)

/-- A C truth value as a Scheme boolean. -/
def bool (b : Bool) : Int := if b then c_t else c_f

/-- `null_p`: /repo/src/core.c:75-81. -/
def nullP (x : Int) : Int := bool (decide (x = c_nil))

/-- `values`: /repo/src/core.c:114-120. -/
def values (s : St) (x : Int) : Res (Int × St) := do
  let (v, s) ← cons s 0 x
  let s ← s.setTag v .values
  ok (v, s)

/-- `acons`: /repo/src/core.c:122-126. -/
def acons (s : St) (key value alist : Int) : Res (Int × St) := do
  let (p, s) ← cons s key value
  cons s p alist

/-- Loop of `length__`: /repo/src/core.c:132-138. -/
def lengthLoop (s : St) : (fuel : Nat) → (n x : Int) → Res Int
  | 0, _, _ => loop
  | fuel + 1, n, x =>
    if x = c_nil then ok n
    else do
      let c ← s.rd x
      if c.tag ≠ .pair then ok (-1) else lengthLoop s fuel (n + 1) c.cdr

/-- `length__`: /repo/src/core.c:128-140. -/
def length__ (s : St) (fuel : Nat) (x : Int) : Res Int := lengthLoop s fuel 0 x

/-- `length`: /repo/src/core.c:142-146. -/
def lengthP (s : St) (fuel : Nat) (x : Int) : Res (Int × St) := do
  let n ← length__ s fuel x
  makeNumber s n

/-- Loop shared by `append2` (/repo/src/core.c:172-176) and `append_reverse` (187-191). -/
def revOnto : (fuel : Nat) → (s : St) → (x r : Int) → Res (Int × St)
  | 0, _, _, _ => loop
  | fuel + 1, s, x, r =>
    if x = c_nil then ok (r, s)
    else do
      let c ← s.rd x
      let (r, s) ← cons s c.car r
      let d ← s.cdr x
      revOnto fuel s d r

/-- Loop of `reverse_x_`: /repo/src/core.c:201-207. -/
def reverseXLoop : (fuel : Nat) → (s : St) → (x r : Int) → Res (Int × St)
  | 0, _, _, _ => loop
  | fuel + 1, s, x, r =>
    if x = c_nil then ok (r, s)
    else do
      let t ← s.cdr x
      let s ← s.setCdr x r
      reverseXLoop fuel s t x

/-- `reverse_x_`: /repo/src/core.c:195-209. -/
def reverseX (s : St) (fuel : Nat) (x t : Int) : Res (Int × St) :=
  if x ≠ c_nil then do
    let c ← s.rd x
    if c.tag ≠ .pair then err .notAPair else reverseXLoop fuel s x t
  else ok (t, s)

/-- `append2`: /repo/src/core.c:164-178. -/
def append2 (s : St) (fuel : Nat) (x y : Int) : Res (Int × St) :=
  if x = c_nil then ok (y, s)
  else do
    let c ← s.rd x
    if c.tag ≠ .pair then err .notAPair
    else do
      let (r, s) ← revOnto fuel s x c_nil
      reverseX s fuel r y

/-- `append_reverse`: /repo/src/core.c:180-193. -/
def appendReverse (s : St) (fuel : Nat) (x y : Int) : Res (Int × St) :=
  if x = c_nil then ok (y, s)
  else do
    let c ← s.rd x
    if c.tag ≠ .pair then err .notAPair
    else revOnto fuel s x y

/-! ### Strings: string.c -/

/-- `string_equal_p`: /repo/src/string.c:64-94.  `memcmp` over the first `length` bytes (C library model
`Mes.C.memcmp`; it is zero iff the bytes agree, theorem `C42_memcmp_zero`).  Reading more bytes than the object has is
undefined. -/
def stringEqual (s : St) (a b : Int) : Res Int := do
  let ca ← s.rd a
  let cb ← s.rd b
  assert ((ca.tag = .string ∧ cb.tag = .string) ∨ (ca.tag = .keyword ∨ cb.tag = .keyword))
  if a = b then ok c_t
  else if ca.cdr = cb.cdr then ok c_t
  else if ca.car = 0 ∧ cb.car = 0 then ok c_t
  else if ca.car = cb.car then do
    let ba ← s.bytes ca.cdr
    let bb ← s.bytes cb.cdr
    ubUnless (0 ≤ ca.car ∧ ca.car.toNat ≤ ba.length ∧ ca.car.toNat ≤ bb.length)
    if ba.take ca.car.toNat = bb.take ca.car.toNat then ok c_t else ok c_f
  else ok c_f

/-- `eq_p`: /repo/src/core.c:83-112. -/
def eqP (s : St) (x y : Int) : Res Int :=
  if x = y then ok c_t
  else do
    let cx ← s.rd x
    let cy ← s.rd y
    if cx.tag = .keyword then
      if cy.tag = .keyword then stringEqual s x y else ok c_f
    else if cx.tag = .char then
      if cy.tag ≠ .char then ok c_f else if cx.cdr = cy.cdr then ok c_t else ok c_f
    else if cx.tag = .number then
      if cy.tag ≠ .number then ok c_f else if cx.cdr = cy.cdr then ok c_t else ok c_f
    else ok c_f

/-- `assoc_string`: /repo/src/core.c:32-47. -/
def assocString (s : St) (x : Int) : (fuel : Nat) → (a : Int) → Res Int
  | 0, _ => loop
  | fuel + 1, a =>
    if a = c_nil then ok c_f
    else do
      let ca ← s.rd a
      let k ← s.car ca.car
      let t ← s.tag k
      if t = .string then do
        let e ← stringEqual s x k
        if e = c_t then ok ca.car else assocString s x fuel ca.cdr
      else assocString s x fuel ca.cdr

/-- The loops of `assq` for symbols and other values compared by address: /repo/src/core.c:219-224, 246-251. -/
def assqPtr (s : St) (x : Int) : (fuel : Nat) → (a : Int) → Res Int
  | 0, _ => loop
  | fuel + 1, a =>
    if a = c_nil then ok c_f
    else do
      let ca ← s.rd a
      let k ← s.car ca.car
      if x = k then ok ca.car else assqPtr s x fuel ca.cdr

/-- The loop of `assq` for characters and numbers: /repo/src/core.c:227-233.  The second word of the key is compared,
whatever the type of the key. -/
def assqVal (s : St) (v : Int) : (fuel : Nat) → (a : Int) → Res Int
  | 0, _ => loop
  | fuel + 1, a =>
    if a = c_nil then ok c_f
    else do
      let ca ← s.rd a
      let k ← s.car ca.car
      let w ← s.cdr k
      if v = w then ok ca.car else assqVal s v fuel ca.cdr

/-- The loop of `assq` for keywords: /repo/src/core.c:237-242. -/
def assqKey (s : St) (x : Int) : (fuel : Nat) → (a : Int) → Res Int
  | 0, _ => loop
  | fuel + 1, a =>
    if a = c_nil then ok c_f
    else do
      let ca ← s.rd a
      let k ← s.car ca.car
      let e ← stringEqual s x k
      if e = c_t then ok ca.car else assqKey s x fuel ca.cdr

/-- `assq`: /repo/src/core.c:211-253. -/
def assq (s : St) (fuel : Nat) (x a : Int) : Res Int := do
  let ca ← s.rd a
  if ca.tag ≠ .pair then ok c_f
  else do
    let cx ← s.rd x
    if cx.tag = .symbol ∨ cx.tag = .special then assqPtr s x fuel a
    else if cx.tag = .char ∨ cx.tag = .number then assqVal s cx.cdr fuel a
    else if cx.tag = .keyword then assqKey s x fuel a
    else assqPtr s x fuel a

/-! ### lib.c -/

/-- The loop of `memq` for characters and numbers: /repo/src/lib.c:74-81. -/
def memqVal (s : St) (v : Int) : (fuel : Nat) → (a : Int) → Res Int
  | 0, _ => loop
  | fuel + 1, a =>
    if a = c_nil then ok c_f
    else do
      let ca ← s.rd a
      let w ← s.cdr ca.car
      if v = w then ok a else memqVal s v fuel ca.cdr

/-- The loop of `memq` for keywords: /repo/src/lib.c:85-92. -/
def memqKey (s : St) (x : Int) : (fuel : Nat) → (a : Int) → Res Int
  | 0, _ => loop
  | fuel + 1, a =>
    if a = c_nil then ok c_f
    else do
      let ca ← s.rd a
      let t ← s.tag ca.car
      if t = .keyword then do
        let e ← stringEqual s x ca.car
        if e = c_t then ok a else memqKey s x fuel ca.cdr
      else memqKey s x fuel ca.cdr

/-- The last loop of `memq`: /repo/src/lib.c:94-100. -/
def memqPtr (s : St) (x : Int) : (fuel : Nat) → (a : Int) → Res Int
  | 0, _ => loop
  | fuel + 1, a =>
    if a = c_nil then ok c_f
    else do
      let ca ← s.rd a
      if x = ca.car then ok a else memqPtr s x fuel ca.cdr

/-- `memq`: /repo/src/lib.c:68-101. -/
def memq (s : St) (fuel : Nat) (x a : Int) : Res Int := do
  let cx ← s.rd x
  if cx.tag = .char ∨ cx.tag = .number then memqVal s cx.cdr fuel a
  else if cx.tag = .keyword then memqKey s x fuel a
  else memqPtr s x fuel a

/-- Following a TREF: the `if (e->type == TREF) e = e->ref;` of /repo/src/lib.c:133-136 and of vector.c, struct.c. -/
def deref (s : St) (e : Int) : Res Int := do
  let c ← s.rd e
  if c.tag = .ref then ok c.car else ok e

mutual
/-- `equal2_p`: /repo/src/lib.c:103-143.  The `goto equal2` on the cdrs is a call. -/
def equal2 (s : St) : (fuel : Nat) → (a b : Int) → Res Int
  | 0, _, _ => loop
  | fuel + 1, a, b =>
    if a = b then ok c_t
    else do
      let ca ← s.rd a
      let cb ← s.rd b
      if ca.tag = .pair ∧ cb.tag = .pair then do
        let e ← equal2 s fuel ca.car cb.car
        if e = c_t then equal2 s fuel ca.cdr cb.cdr else ok c_f
      else if ca.tag = .string ∧ cb.tag = .string then stringEqual s a b
      else if ca.tag = .vector ∧ cb.tag = .vector then
        if ca.car ≠ cb.car then ok c_f
        else equal2Vec s fuel ca.cdr cb.cdr ca.car.toNat
      else eqP s a b
/-- Loop over the elements of two vectors: /repo/src/lib.c:129-140; `n` elements are left, starting at `v` and `w`. -/
def equal2Vec (s : St) : (fuel : Nat) → (v w : Int) → (n : Nat) → Res Int
  | 0, _, _, _ => loop
  | _ + 1, _, _, 0 => ok c_t
  | fuel + 1, v, w, n + 1 => do
    let ai ← deref s v
    let bi ← deref s w
    let e ← equal2 s fuel ai bi
    if e = c_f then ok c_f else equal2Vec s fuel (v + 1) (w + 1) n
end

/-- The loop of `assoc`: /repo/src/core.c:260-265. -/
def assocLoop (s : St) (x : Int) (deep : Nat) : (fuel : Nat) → (a : Int) → Res Int
  | 0, _ => loop
  | fuel + 1, a =>
    if a = c_nil then ok c_f
    else do
      let ca ← s.rd a
      let k ← s.car ca.car
      let e ← equal2 s deep x k
      if e = c_t then ok ca.car else assocLoop s x deep fuel ca.cdr

/-- `assoc`: /repo/src/core.c:255-267. -/
def assoc (s : St) (fuel : Nat) (x a : Int) : Res Int := do
  let t ← s.tag x
  if t = .string then assocString s x fuel a else assocLoop s x fuel fuel a

/-- `last_pair`: /repo/src/lib.c:145-155. -/
def lastPair (s : St) : (fuel : Nat) → (x : Int) → Res Int
  | 0, _ => loop
  | fuel + 1, x =>
    if x = c_nil then ok x
    else do
      let c ← s.rd x
      if c.cdr = c_nil then ok x else lastPair s fuel c.cdr

/-! ### Vectors: vector.c -/

/-- `vector_entry`: /repo/src/vector.c:88-94. -/
def vectorEntry (s : St) (x : Int) : Res (Int × St) := do
  let c ← s.rd x
  if c.tag ≠ .char ∧ c.tag ≠ .number then makeRef s x else ok (x, s)

/-- `copy_cell (cell_ref (v, i), vector_entry (e))`: /repo/src/vector.c:42, 101, 118.  C leaves the order of the two
arguments open; the address does not depend on the entry. -/
def setEntry (s : St) (at' e : Int) : Res St := do
  let (x, s) ← vectorEntry s e
  s.copyCell at' x

/-- Loop of `make_vector_`: /repo/src/vector.c:41-42. -/
def fillVector : (n : Nat) → (s : St) → (v e : Int) → Res St
  | 0, s, _, _ => ok s
  | n + 1, s, v, e => do
    let s ← setEntry s v e
    fillVector n s (v + 1) e

/-- `make_vector_`: /repo/src/vector.c:32-45. -/
def makeVector (s : St) (k e : Int) : Res (Int × St) := do
  let (x, s) ← alloc s 1
  let (v, s) ← alloc s k
  let s ← s.put x { tag := .vector, car := k, cdr := v }
  let s ← fillVector k.toNat s v e
  ok (x, s)

/-- `vector_length`: /repo/src/vector.c:60-65. -/
def vectorLength (s : St) (x : Int) : Res (Int × St) := do
  let c ← s.rd x
  assert (c.tag = .vector)
  makeNumber s c.car

/-- The end of `vector_ref_` and `struct_ref_`: /repo/src/vector.c:72-79, /repo/src/struct.c:62-69. -/
def fetch (s : St) (e : Int) : Res (Int × St) := do
  let e ← deref s e
  let c ← s.rd e
  if c.tag = .char then makeChar s c.cdr
  else if c.tag = .number then makeNumber s c.cdr
  else ok (e, s)

/-- `vector_ref_`: /repo/src/vector.c:67-80. -/
def vectorRef (s : St) (x i : Int) : Res (Int × St) := do
  let c ← s.rd x
  assert (c.tag = .vector)
  assert (i < c.car)
  fetch s (c.cdr + i)

/-- `vector_set_x_`: /repo/src/vector.c:96-103. -/
def vectorSet (s : St) (x i e : Int) : Res (Int × St) := do
  let c ← s.rd x
  assert (c.tag = .vector)
  assert (i < c.car)
  let s ← setEntry s (c.cdr + i) e
  ok (c_unspecified, s)

/-- Loop of `list_to_vector`: /repo/src/vector.c:116-121. -/
def fillFromList : (fuel : Nat) → (s : St) → (p x : Int) → Res St
  | 0, _, _, _ => loop
  | fuel + 1, s, p, x =>
    if x = c_nil then ok s
    else do
      let e ← carP s x
      let s ← setEntry s p e
      let d ← cdrP s x
      fillFromList fuel s (p + 1) d

/-- `list_to_vector`: /repo/src/vector.c:111-123. -/
def listToVector (s : St) (fuel : Nat) (x : Int) : Res (Int × St) := do
  let n ← length__ s fuel x
  let (v, s) ← makeVector s n c_unspecified
  let p ← s.cdr v
  let s ← fillFromList fuel s p x
  ok (v, s)

/-- Loop of `vector_to_list`: /repo/src/vector.c:131-137; `n` elements are left. -/
def vectorToListLoop : (n : Nat) → (s : St) → (v x : Int) → Res (Int × St)
  | 0, s, _, x => ok (x, s)
  | n + 1, s, v, x => do
    let e ← deref s (v + n)
    let (x, s) ← cons s e x
    vectorToListLoop n s v x

/-- `vector_to_list`: /repo/src/vector.c:125-139.  A negative length would not end; vectors of negative length are
not modelled here (`ub`). -/
def vectorToList (s : St) (v : Int) : Res (Int × St) := do
  let c ← s.rd v
  ubUnless (0 ≤ c.car)
  vectorToListLoop c.car.toNat s c.cdr c_nil

/-! ### Structs: struct.c -/

/-- Loop of `make_struct`: /repo/src/struct.c:37-46; `n` fields are left. -/
def fillStruct : (n : Nat) → (s : St) → (v fields : Int) → Res St
  | 0, s, _, _ => ok s
  | n + 1, s, v, fields =>
    if fields = c_nil then do
      let s ← setEntry s v c_unspecified
      fillStruct n s (v + 1) fields
    else do
      let c ← s.rd fields
      let s ← setEntry s v c.car
      fillStruct n s (v + 1) c.cdr

/-- `make_struct`: /repo/src/struct.c:24-48. -/
def makeStruct (s : St) (fuel : Nat) (type fields printer : Int) : Res (Int × St) := do
  let n ← length__ s fuel fields
  let size := 2 + n
  let (x, s) ← alloc s 1
  let (v, s) ← alloc s size
  let s ← s.put x { tag := .struct, car := size, cdr := v }
  let s ← setEntry s v type
  let s ← setEntry s (v + 1) printer
  let s ← fillStruct (size - 2).toNat s (v + 2) fields
  ok (x, s)

/-- `struct_length`: /repo/src/struct.c:50-55. -/
def structLength (s : St) (x : Int) : Res (Int × St) := do
  let c ← s.rd x
  assert (c.tag = .struct)
  makeNumber s c.car

/-- `struct_ref_`: /repo/src/struct.c:57-70. -/
def structRef (s : St) (x i : Int) : Res (Int × St) := do
  let c ← s.rd x
  assert (c.tag = .struct)
  assert (i < c.car)
  fetch s (c.cdr + i)

/-- `struct_set_x_`: /repo/src/struct.c:72-79. -/
def structSet (s : St) (x i e : Int) : Res (Int × St) := do
  let c ← s.rd x
  assert (c.tag = .struct)
  assert (i < c.car)
  let s ← setEntry s (c.cdr + i) e
  ok (c_unspecified, s)

/-! ### More strings: string.c -/

/-- Loop of `list_to_cstring`: /repo/src/string.c:49-57; `acc` is the contents of `g_buf` so far, reversed.  The check
`i > MAX_STRING` comes before the store `g_buf[i]`, and `g_buf` has `MAX_STRING` bytes. -/
def listToCstringLoop (s : St) : (fuel : Nat) → (acc : List Byte) → (list : Int) → Res (List Byte)
  | 0, _, _ => loop
  | fuel + 1, acc, list =>
    if list = c_nil then ok acc
    else if s.maxString < acc.length then err .systemError
    else do
      let x ← carP s list
      let v ← s.cdr x
      ubUnless (acc.length < s.maxString)
      let d ← cdrP s list
      listToCstringLoop s fuel (toByte v :: acc) d

/-- `list_to_cstring`: /repo/src/string.c:43-62; the final store of the NUL is at `g_buf[i]`. -/
def listToCstring (s : St) (fuel : Nat) (list : Int) : Res (List Byte) := do
  let acc ← listToCstringLoop s fuel [] list
  ubUnless (acc.length < s.maxString)
  ok acc.reverse

/-- `list_to_string`: /repo/src/string.c:164-170. -/
def listToString (s : St) (fuel : Nat) (list : Int) : Res (Int × St) := do
  let bs ← listToCstring s fuel list
  makeString s bs

/-- Loop of `bytes_to_list`: /repo/src/string.c:136-141, over the bytes in reverse order.  `(0x100 + s[i]) % 0x100` is
the unsigned value of the byte. -/
def bytesToListLoop : (rev : List Byte) → (s : St) → (p : Int) → Res (Int × St)
  | [], s, p => ok (p, s)
  | b :: rev, s, p => do
    let (c, s) ← makeChar s ((256 + sc b) % 256)
    let (p, s) ← cons s c p
    bytesToListLoop rev s p

/-- `bytes_to_list`: /repo/src/string.c:131-143. -/
def bytesToList (s : St) (bs : List Byte) : Res (Int × St) := bytesToListLoop bs.reverse s c_nil

/-- The text of a string-like cell: its first `length` bytes.  Used wherever C passes `cell_bytes (x->string)` and
`x->length`; a length beyond the bytes is undefined. -/
def textOf (s : St) (x : Int) : Res (List Byte) := do
  let c ← s.rd x
  let bs ← s.bytes c.cdr
  ubUnless (0 ≤ c.car ∧ c.car.toNat ≤ bs.length)
  ok (bs.take c.car.toNat)

/-- `string_to_list`: /repo/src/string.c:158-162. -/
def stringToList (s : St) (x : Int) : Res (Int × St) := do
  let bs ← textOf s x
  bytesToList s bs

/-- `symbol_to_string` (/repo/src/string.c:96-100), `keyword_to_string` (108-112): the new cell shares the bytes. -/
def symbolToString (s : St) (x : Int) : Res (Int × St) := do
  let c ← s.rd x
  makeCell s .string c.car c.cdr

/-- `symbol_to_keyword`: /repo/src/string.c:102-106. -/
def symbolToKeyword (s : St) (x : Int) : Res (Int × St) := do
  let c ← s.rd x
  makeCell s .keyword c.car c.cdr

/-- Loop of `string_append`: /repo/src/string.c:204-214; `acc` is the text in `g_buf`.  `memcpy` stores the terminator
too, before the length is checked. -/
def stringAppendLoop (s : St) : (fuel : Nat) → (acc : List Byte) → (x : Int) → Res (List Byte)
  | 0, _, _ => loop
  | fuel + 1, acc, x =>
    if x = c_nil then ok acc
    else do
      let c ← s.rd x
      let cs ← s.rd c.car
      assert (cs.tag = .string)
      let bs ← textOf s c.car
      ubUnless (acc.length + bs.length + 1 ≤ s.maxString)
      if s.maxString < acc.length + bs.length then err .systemError
      else stringAppendLoop s fuel (acc ++ bs) c.cdr

/-- `string_append`: /repo/src/string.c:197-216. -/
def stringAppend (s : St) (fuel : Nat) (x : Int) : Res (Int × St) := do
  let bs ← stringAppendLoop s fuel [] x
  makeString s bs

/-- `string_length`: /repo/src/string.c:218-223. -/
def stringLength (s : St) (x : Int) : Res (Int × St) := do
  let c ← s.rd x
  assert (c.tag = .string)
  makeNumber s c.car

/-- `string_ref`: /repo/src/string.c:225-236.  The index is converted to `size_t`, so a negative index is out of range;
`p[i]` is a signed `char`. -/
def stringRef (s : St) (str k : Int) : Res (Int × St) := do
  let c ← s.rd str
  assert (c.tag = .string)
  let ck ← s.rd k
  assert (ck.tag = .number)
  if ck.cdr < 0 ∨ ck.cdr > c.car then err .systemError
  else do
    let bs ← s.bytes c.cdr
    let b ← Res.ofRead bs[ck.cdr.toNat]?
    makeChar s (sc b)

/-! ### Hash tables: hash.c -/

/-- `hash_cstring`: /repo/src/hash.c:26-36.  `s` is the NUL-terminated text; `hash` is an `int`, `%` truncates and the
result can be negative. -/
def hashCstring (bs : List Byte) (size : Int) : Res Int := do
  let c0 ← Res.ofRead bs[0]?
  let hash := sc c0 * 37
  let hash ← if c0 ≠ 0 then do
      let c1 ← Res.ofRead bs[1]?
      ok (if c1 ≠ 0 then hash + sc c1 * 43 else hash)
    else ok hash
  assert (size ≠ 0)
  ok (hash.tmod size)

/-- Conversion to `unsigned` of the result: `unsigned hash = hashq_ (key, size)`, /repo/src/hash.c:77, 102, 134, 143. -/
def toUnsigned (h : Int) : Int := h % 4294967296

/-- `hashq_`: /repo/src/hash.c:38-44. -/
def hashq_ (s : St) (x size : Int) : Res Int := do
  let c ← s.rd x
  if c.tag = .special ∨ c.tag = .symbol then do
    let bs ← s.bytes c.cdr
    hashCstring bs size
  else err .systemError

/-- `hash_`: /repo/src/hash.c:46-56. -/
def hash_ (s : St) (x size : Int) : Res Int := do
  let c ← s.rd x
  assert (c.tag = .string)
  let bs ← s.bytes c.cdr
  hashCstring bs size

/-- `hashq_get_handle`: /repo/src/hash.c:72-86. -/
def hashqGetHandle (s : St) (fuel : Nat) (table key dflt : Int) : Res (Int × St) := do
  let (sz, s) ← structRef s table 3
  let size ← s.cdr sz
  let h ← hashq_ s key size
  let (buckets, s) ← structRef s table 4
  let (bucket, s) ← vectorRef s buckets (toUnsigned h)
  let cd ← s.rd dflt
  let x := if cd.tag = .pair then cd.car else c_f
  let cb ← s.rd bucket
  if cb.tag = .pair then do
    let x ← assq s fuel key bucket
    ok (x, s)
  else ok (x, s)

/-- `hashq_ref`: /repo/src/hash.c:88-95. -/
def hashqRef (s : St) (fuel : Nat) (table key dflt : Int) : Res (Int × St) := do
  let (x, s) ← hashqGetHandle s fuel table key dflt
  if x ≠ c_f then do
    let d ← s.cdr x
    ok (d, s)
  else ok (x, s)

/-- `hash_ref`: /repo/src/hash.c:97-115. -/
def hashRef (s : St) (fuel : Nat) (table key dflt : Int) : Res (Int × St) := do
  let (sz, s) ← structRef s table 3
  let size ← s.cdr sz
  let h ← hash_ s key size
  let (buckets, s) ← structRef s table 4
  let (bucket, s) ← vectorRef s buckets (toUnsigned h)
  let cd ← s.rd dflt
  let x := if cd.tag = .pair then cd.car else c_f
  let cb ← s.rd bucket
  if cb.tag = .pair then do
    let x ← assoc s fuel key bucket
    if x ≠ c_f then do
      let d ← s.cdr x
      ok (d, s)
    else ok (x, s)
  else ok (x, s)

/-- `hash_set_x_`: /repo/src/hash.c:117-127. -/
def hashSet_ (s : St) (table hash key value : Int) : Res (Int × St) := do
  let (buckets, s) ← structRef s table 4
  let (bucket, s) ← vectorRef s buckets hash
  let cb ← s.rd bucket
  let bucket := if cb.tag ≠ .pair then c_nil else bucket
  let (bucket, s) ← acons s key value bucket
  let (_, s) ← vectorSet s buckets hash bucket
  ok (value, s)

/-- `hashq_set_x`: /repo/src/hash.c:129-136. -/
def hashqSet (s : St) (table key value : Int) : Res (Int × St) := do
  let (sz, s) ← structRef s table 3
  let size ← s.cdr sz
  let h ← hashq_ s key size
  hashSet_ s table (toUnsigned h) key value

/-- `hash_set_x`: /repo/src/hash.c:138-145. -/
def hashSet (s : St) (table key value : Int) : Res (Int × St) := do
  let (sz, s) ← structRef s table 3
  let size ← s.cdr sz
  let h ← hash_ s key size
  hashSet_ s table (toUnsigned h) key value

/-- `make_hashq_type`: /repo/src/hash.c:179-188. -/
def makeHashqType (s : St) (fuel : Nat) : Res (Int × St) := do
  let (f, s) ← cons s c_symbol_buckets c_nil
  let (f, s) ← cons s c_symbol_size f
  let (f, s) ← cons s f c_nil
  let (f, s) ← cons s c_symbol_hashq_table f
  makeStruct s fuel c_symbol_record_type f c_unspecified

/-- `make_hash_table_`: /repo/src/hash.c:190-205. -/
def makeHashTable (s : St) (fuel : Nat) (size : Int) : Res (Int × St) := do
  let size := if size = 0 then 100 else size
  let (type, s) ← makeHashqType s fuel
  let (buckets, s) ← makeVector s size c_unspecified
  let (v, s) ← cons s buckets c_nil
  let (n, s) ← makeNumber s size
  let (v, s) ← cons s n v
  let (v, s) ← cons s c_symbol_hashq_table v
  makeStruct s fuel type v c_unspecified

/-- `make_hash_table`: /repo/src/hash.c:207-217. -/
def makeHashTableP (s : St) (fuel : Nat) (x : Int) : Res (Int × St) := do
  let c ← s.rd x
  if c.tag = .pair then abort else makeHashTable s fuel 0

/-! ### Symbols: string.c -/

/-- `make_symbol`: /repo/src/string.c:123-129. -/
def makeSymbol (s : St) (string : Int) : Res (Int × St) := do
  let c ← s.rd string
  let (x, s) ← makeCell s .symbol c.car c.cdr
  let (_, s) ← hashSet s s.symbols string x
  ok (x, s)

/-- `string_to_symbol`: /repo/src/string.c:114-121. -/
def stringToSymbol (s : St) (fuel : Nat) (string : Int) : Res (Int × St) := do
  let (x, s) ← hashRef s fuel s.symbols string c_f
  if x = c_f then makeSymbol s string else ok (x, s)

/-- `cstring_to_symbol`: /repo/src/string.c:151-156. -/
def cstringToSymbol (s : St) (fuel : Nat) (bs : List Byte) : Res (Int × St) := do
  let (x, s) ← makeString s bs
  stringToSymbol s fuel x

end Mes
