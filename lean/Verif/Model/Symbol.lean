import Verif.Model.Data
/-
The predefined symbols and the symbol table: /repo/src/symbol.c.

Not modelled: the association list of constants that `init_symbols` returns, and the M2-Planet build.
-/
namespace Mes
open Res

/-- Types and names of the predefined cells, from `cell_nil` on: /repo/src/symbol.c:58-175. -/
def predefinedNames : List (Tag × List Char) :=
  [(.special, ['(', ')']),
   (.special, ['#', 'f']),
   (.special, ['#', 't']),
   (.special, ['.']),
   (.special, ['=', '>']),
   (.special, ['*', 'u', 'n', 'd', 'e', 'f', 'i', 'n', 'e', 'd', '*']),
   (.special, ['*', 'u', 'n', 's', 'p', 'e', 'c', 'i', 'f', 'i', 'e', 'd', '*']),
   (.special, ['*', 'c', 'l', 'o', 's', 'u', 'r', 'e', '*']),
   (.special, ['*', 'c', 'i', 'r', 'c', 'u', 'l', 'a', 'r', '*']),
   (.special, ['c', 'o', 'r', 'e', ':', 'a', 'p', 'p', 'l', 'y']),
   (.special, ['*', 'v', 'm', '-', 'a', 'p', 'p', 'l', 'y', '2', '*']),
   (.special, ['*', 'v', 'm', '-', 'b', 'e', 'g', 'i', 'n', '*']),
   (.special, ['*', 'v', 'm', ':', 'b', 'e', 'g', 'i', 'n', '-', 'e', 'v', 'a', 'l', '*']),
   (.special, ['c', 'o', 'r', 'e', ':', 'e', 'v', 'a', 'l']),
   (.special, ['*', 'v', 'm', ':', 'b', 'e', 'g', 'i', 'n', '-', 'e', 'x', 'p', 'a', 'n', 'd', '-', 'e', 'v', 'a', 'l', '*']),
   (.special, ['*', 'v', 'm', ':', 'b', 'e', 'g', 'i', 'n', '-', 'e', 'x', 'p', 'a', 'n', 'd', '-', 'm', 'a', 'c', 'r', 'o', '*']),
   (.special, ['*', 'v', 'm', ':', 'c', 'o', 'r', 'e', ':', 'b', 'e', 'g', 'i', 'n', '-', 'e', 'x', 'p', 'a', 'n', 'd', '-', 'p', 'r', 'i', 'm', 'i', 't', 'i', 'v', 'e', '-', 'l', 'o', 'a', 'd', '*']),
   (.special, ['*', 'v', 'm', ':', 'c', 'o', 'r', 'e', ':', 'b', 'e', 'g', 'i', 'n', '-', 'p', 'r', 'i', 'm', 'i', 't', 'i', 'v', 'e', '-', 'l', 'o', 'a', 'd', '*']),
   (.special, ['*', 'v', 'm', '-', 'b', 'e', 'g', 'i', 'n', '-', 'r', 'e', 'a', 'd', '-', 'i', 'n', 'p', 'u', 't', '-', 'f', 'i', 'l', 'e', '*']),
   (.special, ['*', 'v', 'm', '-', 'c', 'a', 'l', 'l', '-', 'w', 'i', 't', 'h', '-', 'c', 'u', 'r', 'r', 'e', 'n', 't', '-', 'c', 'o', 'n', 't', 'i', 'n', 'u', 'a', 't', 'i', 'o', 'n', '2', '*']),
   (.special, ['*', 'v', 'm', '-', 'c', 'a', 'l', 'l', '-', 'w', 'i', 't', 'h', '-', 'v', 'a', 'l', 'u', 'e', 's', '2', '*']),
   (.special, ['c', 'o', 'r', 'e', ':', 'e', 'v', 'a', 'l', '-', 'e', 'x', 'p', 'a', 'n', 'd', 'e', 'd']),
   (.special, ['*', 'v', 'm', '-', 'e', 'v', 'a', 'l', '2', '*']),
   (.special, ['*', 'v', 'm', '-', 'e', 'v', 'a', 'l', '-', 'c', 'h', 'e', 'c', 'k', '-', 'f', 'u', 'n', 'c', '*']),
   (.special, ['*', 'v', 'm', '-', 'e', 'v', 'a', 'l', '-', 'd', 'e', 'f', 'i', 'n', 'e', '*']),
   (.special, ['*', 'v', 'm', ':', 'e', 'v', 'a', 'l', '-', 'm', 'a', 'c', 'r', 'o', '-', 'e', 'x', 'p', 'a', 'n', 'd', '-', 'e', 'v', 'a', 'l', '*']),
   (.special, ['*', 'v', 'm', ':', 'e', 'v', 'a', 'l', '-', 'm', 'a', 'c', 'r', 'o', '-', 'e', 'x', 'p', 'a', 'n', 'd', '-', 'e', 'x', 'p', 'a', 'n', 'd', '*']),
   (.special, ['*', 'v', 'm', '-', 'e', 'v', 'a', 'l', '-', 'p', 'm', 'a', 't', 'c', 'h', '-', 'c', 'a', 'r', '*']),
   (.special, ['*', 'v', 'm', '-', 'e', 'v', 'a', 'l', '-', 'p', 'm', 'a', 't', 'c', 'h', '-', 'c', 'd', 'r', '*']),
   (.special, ['*', 'v', 'm', '-', 'e', 'v', 'a', 'l', '-', 's', 'e', 't', '!', '*']),
   (.special, ['*', 'v', 'm', '-', 'e', 'v', 'l', 'i', 's', '*']),
   (.special, ['*', 'v', 'm', '-', 'e', 'v', 'l', 'i', 's', '2', '*']),
   (.special, ['*', 'v', 'm', '-', 'e', 'v', 'l', 'i', 's', '3', '*']),
   (.special, ['*', 'v', 'm', '-', 'i', 'f', '*']),
   (.special, ['*', 'v', 'm', '-', 'i', 'f', '-', 'e', 'x', 'p', 'r', '*']),
   (.special, ['c', 'o', 'r', 'e', ':', 'm', 'a', 'c', 'r', 'o', '-', 'e', 'x', 'p', 'a', 'n', 'd']),
   (.special, ['*', 'v', 'm', ':', 'c', 'o', 'r', 'e', ':', 'm', 'a', 'c', 'r', 'o', '-', 'e', 'x', 'p', 'a', 'n', 'd', '-', 'c', 'a', 'r', '*']),
   (.special, ['*', 'v', 'm', ':', 'm', 'a', 'c', 'r', 'o', '-', 'e', 'x', 'p', 'a', 'n', 'd', '-', 'c', 'd', 'r', '*']),
   (.special, ['*', 'v', 'm', ':', 'c', 'o', 'r', 'e', ':', 'm', 'a', 'c', 'r', 'o', '-', 'e', 'x', 'p', 'a', 'n', 'd', '-', 'd', 'e', 'f', 'i', 'n', 'e', '*']),
   (.special, ['*', 'v', 'm', ':', 'c', 'o', 'r', 'e', ':', 'm', 'a', 'c', 'r', 'o', '-', 'e', 'x', 'p', 'a', 'n', 'd', '-', 'd', 'e', 'f', 'i', 'n', 'e', '-', 'm', 'a', 'c', 'r', 'o', '*']),
   (.special, ['*', 'v', 'm', ':', 'c', 'o', 'r', 'e', ':', 'm', 'a', 'c', 'r', 'o', '-', 'e', 'x', 'p', 'a', 'n', 'd', '-', 'l', 'a', 'm', 'b', 'd', 'a', '*']),
   (.special, ['*', 'v', 'm', ':', 'c', 'o', 'r', 'e', ':', 'm', 'a', 'c', 'r', 'o', '-', 'e', 'x', 'p', 'a', 'n', 'd', '-', 's', 'e', 't', '!', '*']),
   (.special, ['*', 'v', 'm', '-', 'r', 'e', 't', 'u', 'r', 'n', '*']),
   (.symbol, ['l', 'a', 'm', 'b', 'd', 'a']),
   (.symbol, ['b', 'e', 'g', 'i', 'n']),
   (.symbol, ['i', 'f']),
   (.symbol, ['q', 'u', 'o', 't', 'e']),
   (.symbol, ['d', 'e', 'f', 'i', 'n', 'e']),
   (.symbol, ['d', 'e', 'f', 'i', 'n', 'e', '-', 'm', 'a', 'c', 'r', 'o']),
   (.symbol, ['q', 'u', 'a', 's', 'i', 'q', 'u', 'o', 't', 'e']),
   (.symbol, ['u', 'n', 'q', 'u', 'o', 't', 'e']),
   (.symbol, ['u', 'n', 'q', 'u', 'o', 't', 'e', '-', 's', 'p', 'l', 'i', 'c', 'i', 'n', 'g']),
   (.symbol, ['s', 'y', 'n', 't', 'a', 'x']),
   (.symbol, ['q', 'u', 'a', 's', 'i', 's', 'y', 'n', 't', 'a', 'x']),
   (.symbol, ['u', 'n', 's', 'y', 'n', 't', 'a', 'x']),
   (.symbol, ['u', 'n', 's', 'y', 'n', 't', 'a', 'x', '-', 's', 'p', 'l', 'i', 'c', 'i', 'n', 'g']),
   (.symbol, ['s', 'e', 't', '!']),
   (.symbol, ['s', 'c', '-', 'e', 'x', 'p', 'a', 'n', 'd']),
   (.symbol, ['m', 'a', 'c', 'r', 'o', '-', 'e', 'x', 'p', 'a', 'n', 'd']),
   (.symbol, ['p', 'o', 'r', 't', 'a', 'b', 'l', 'e', '-', 'm', 'a', 'c', 'r', 'o', '-', 'e', 'x', 'p', 'a', 'n', 'd']),
   (.symbol, ['*', 's', 'c', '-', 'e', 'x', 'p', 'a', 'n', 'd', 'e', 'r', '-', 'a', 'l', 'i', 's', 't', '*']),
   (.symbol, ['c', 'a', 'l', 'l', '-', 'w', 'i', 't', 'h', '-', 'v', 'a', 'l', 'u', 'e', 's']),
   (.symbol, ['c', 'a', 'l', 'l', '-', 'w', 'i', 't', 'h', '-', 'c', 'u', 'r', 'r', 'e', 'n', 't', '-', 'c', 'o', 'n', 't', 'i', 'n', 'u', 'a', 't', 'i', 'o', 'n']),
   (.symbol, ['b', 'o', 'o', 't', '-', 'm', 'o', 'd', 'u', 'l', 'e']),
   (.symbol, ['c', 'u', 'r', 'r', 'e', 'n', 't', '-', 'm', 'o', 'd', 'u', 'l', 'e']),
   (.symbol, ['p', 'r', 'i', 'm', 'i', 't', 'i', 'v', 'e', '-', 'l', 'o', 'a', 'd']),
   (.symbol, ['c', 'a', 'r']),
   (.symbol, ['c', 'd', 'r']),
   (.symbol, ['n', 'o', 't', '-', 'a', '-', 'n', 'u', 'm', 'b', 'e', 'r']),
   (.symbol, ['n', 'o', 't', '-', 'a', '-', 'p', 'a', 'i', 'r']),
   (.symbol, ['s', 'y', 's', 't', 'e', 'm', '-', 'e', 'r', 'r', 'o', 'r']),
   (.symbol, ['t', 'h', 'r', 'o', 'w']),
   (.symbol, ['u', 'n', 'b', 'o', 'u', 'n', 'd', '-', 'v', 'a', 'r', 'i', 'a', 'b', 'l', 'e']),
   (.symbol, ['w', 'r', 'o', 'n', 'g', '-', 'n', 'u', 'm', 'b', 'e', 'r', '-', 'o', 'f', '-', 'a', 'r', 'g', 's']),
   (.symbol, ['w', 'r', 'o', 'n', 'g', '-', 't', 'y', 'p', 'e', '-', 'a', 'r', 'g']),
   (.symbol, ['b', 'u', 'c', 'k', 'e', 't', 's']),
   (.symbol, ['<', 'b', 'u', 'i', 'l', 't', 'i', 'n', '>']),
   (.symbol, ['<', 'f', 'r', 'a', 'm', 'e', '>']),
   (.symbol, ['<', 'h', 'a', 's', 'h', 'q', '-', 't', 'a', 'b', 'l', 'e', '>']),
   (.symbol, ['<', 'm', 'o', 'd', 'u', 'l', 'e', '>']),
   (.symbol, ['p', 'r', 'o', 'c', 'e', 'd', 'u', 'r', 'e']),
   (.symbol, ['<', 'r', 'e', 'c', 'o', 'r', 'd', '-', 't', 'y', 'p', 'e', '>']),
   (.symbol, ['s', 'i', 'z', 'e']),
   (.symbol, ['<', 's', 't', 'a', 'c', 'k', '>']),
   (.symbol, ['%', 'a', 'r', 'g', 'v']),
   (.symbol, ['%', 'd', 'a', 't', 'a', 'd', 'i', 'r']),
   (.symbol, ['%', 'v', 'e', 'r', 's', 'i', 'o', 'n']),
   (.symbol, ['i', 'n', 't', 'e', 'r', 'n', 'a', 'l', '-', 't', 'i', 'm', 'e', '-', 'u', 'n', 'i', 't', 's', '-', 'p', 'e', 'r', '-', 's', 'e', 'c', 'o', 'n', 'd']),
   (.symbol, ['%', 'c', 'o', 'm', 'p', 'i', 'l', 'e', 'r']),
   (.symbol, ['%', 'a', 'r', 'c', 'h']),
   (.symbol, ['p', 'm', 'a', 't', 'c', 'h', '-', 'c', 'a', 'r']),
   (.symbol, ['p', 'm', 'a', 't', 'c', 'h', '-', 'c', 'd', 'r']),
   (.symbol, ['<', 'c', 'e', 'l', 'l', ':', 'b', 'y', 't', 'e', 's', '>']),
   (.symbol, ['<', 'c', 'e', 'l', 'l', ':', 'c', 'h', 'a', 'r', '>']),
   (.symbol, ['<', 'c', 'e', 'l', 'l', ':', 'c', 'l', 'o', 's', 'u', 'r', 'e', '>']),
   (.symbol, ['<', 'c', 'e', 'l', 'l', ':', 'c', 'o', 'n', 't', 'i', 'n', 'u', 'a', 't', 'i', 'o', 'n', '>']),
   (.symbol, ['<', 'c', 'e', 'l', 'l', ':', 'f', 'u', 'n', 'c', 't', 'i', 'o', 'n', '>']),
   (.symbol, ['<', 'c', 'e', 'l', 'l', ':', 'k', 'e', 'y', 'w', 'o', 'r', 'd', '>']),
   (.symbol, ['<', 'c', 'e', 'l', 'l', ':', 'm', 'a', 'c', 'r', 'o', '>']),
   (.symbol, ['<', 'c', 'e', 'l', 'l', ':', 'n', 'u', 'm', 'b', 'e', 'r', '>']),
   (.symbol, ['<', 'c', 'e', 'l', 'l', ':', 'p', 'a', 'i', 'r', '>']),
   (.symbol, ['<', 'c', 'e', 'l', 'l', ':', 'p', 'o', 'r', 't', '>']),
   (.symbol, ['<', 'c', 'e', 'l', 'l', ':', 'r', 'e', 'f', '>']),
   (.symbol, ['<', 'c', 'e', 'l', 'l', ':', 's', 'p', 'e', 'c', 'i', 'a', 'l', '>']),
   (.symbol, ['<', 'c', 'e', 'l', 'l', ':', 's', 't', 'r', 'i', 'n', 'g', '>']),
   (.symbol, ['<', 'c', 'e', 'l', 'l', ':', 's', 't', 'r', 'u', 'c', 't', '>']),
   (.symbol, ['<', 'c', 'e', 'l', 'l', ':', 's', 'y', 'm', 'b', 'o', 'l', '>']),
   (.symbol, ['<', 'c', 'e', 'l', 'l', ':', 'v', 'a', 'l', 'u', 'e', 's', '>']),
   (.symbol, ['<', 'c', 'e', 'l', 'l', ':', 'v', 'a', 'r', 'i', 'a', 'b', 'l', 'e', '>']),
   (.symbol, ['<', 'c', 'e', 'l', 'l', ':', 'v', 'e', 'c', 't', 'o', 'r', '>']),
   (.symbol, ['<', 'c', 'e', 'l', 'l', ':', 'b', 'r', 'o', 'k', 'e', 'n', '-', 'h', 'e', 'a', 'r', 't', '>']),
   (.symbol, ['%', 'p', 'r', 'o', 'g', 'r', 'a', 'm']),
   (.symbol, ['%', '%', 't', 'e', 's', 't'])]

/-- The bytes of an ASCII text. -/
def ascii (cs : List Char) : List Byte := cs.map (fun c => UInt8.ofNat c.toNat)

def predefined : List (Tag × List Byte) := predefinedNames.map (fun e => (e.1, ascii e.2))

/-- `init_symbol` when there is no symbol table yet: /repo/src/symbol.c:37-52; only the type is stored. -/
def initSymbol0 (s : St) (t : Tag) : St :=
  { s.upd s.free { s.cell s.free with tag := t } with free := s.free + 1 }

/-- `init_symbol` with a symbol table: /repo/src/symbol.c:37-52. -/
def initSymbol (s : St) (x : Int) (t : Tag) (name : List Byte) : Res St := do
  let s ← s.setTag x t
  let (string, s) ← makeString s name
  let s ← s.setCar x name.length
  let bytes ← s.cdr string
  let s ← s.setCdr x bytes
  let (_, s) ← hashSet s s.symbols string x
  ok s

/-- `init_symbols_`, first call: /repo/src/symbol.c:54-176. -/
def initSymbols0 : List (Tag × List Byte) → St → St
  | [], s => s
  | e :: l, s => initSymbols0 l (initSymbol0 s e.1)

/-- `init_symbols_`, second call. -/
def initSymbols_ : List (Tag × List Byte) → St → (x : Int) → Res St
  | [], s, _ => ok s
  | e :: l, s, x => do
    let s ← initSymbol s x e.1 e.2
    initSymbols_ l s (x + 1)

/-- `init_symbols`: /repo/src/symbol.c:178-190. -/
def initSymbols (s : St) (fuel : Nat) : Res St := do
  let s := initSymbols0 predefined { s with free := c_nil, symbols := 0 }
  let (t, s) ← makeHashTable s fuel 500
  let s ← initSymbols_ predefined { s with symbols := t } c_nil
  ok { s with ports := c_nil }

end Mes
