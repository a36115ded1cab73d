import Verif.Spec.Eval
/-
The Scheme library of Mes: the procedures of /repo/mes/module/mes/scm.mes, /repo/mes/module/mes/base.mes,
/repo/mes/module/srfi/srfi-1.mes and srfi-1.scm, as programs of the core language (Spec/Eval), which the evaluator runs (C30).

The macros `let`, `or`, `and` and `cond` are functions on expressions, as they are defined in Scheme; the programs are those after
macro expansion.  A definition `(define (f x) …)` is given by the value of the variable, a closure without local variables.  The names are
symbols; `Names` gives their addresses.
-/
namespace Mes.Lib
open Spec

/-- The addresses of the symbols that are used as names. -/
class Names where
  nm : String → Int
  inj : ∀ x y, nm x = nm y → x = y

export Names (nm)

variable [Names]

def v (x : String) : Expr := .var (nm x)
def call (f : String) (args : List Expr) : Expr := .app (v f) args
def lambda (xs : List String) (body : List Expr) : Expr := .lam (xs.map nm) none body
def set! (x : String) (e : Expr) : Expr := .set (nm x) e
/-- `'()` -/
def nil' : Expr := .quote (.obj c_nil)
/-- `#f` -/
def no : Expr := .const (.obj c_f)
/-- `#t` -/
def yes : Expr := .const (.obj c_t)
def int (n : Int) : Expr := .const (.int n)
/-- `*unspecified*` -/
def unspec : Expr := .const (.obj c_unspecified)

/-- The value of a definition `(define (f x …) …)`. -/
def proc (xs : List String) (body : List Expr) : Value := .clo (xs.map nm) none body fun _ => none
/-- The value of a definition `(define (f x … . r) …)`. -/
def procRest (xs : List String) (r : String) (body : List Expr) : Value := .clo (xs.map nm) (some (nm r)) body fun _ => none

/-! ### Macros -/

/-- `let`, without a name: /repo/mes/module/mes/let.mes:35-37, 44-47. -/
def let' (bs : List (String × Expr)) (body : List Expr) : Expr := .app (lambda (bs.map (·.1)) body) (bs.map (·.2))

/-- `let`, with a name: /repo/mes/module/mes/let.mes:31-33, 39-47. -/
def loop (name : String) (bs : List (String × Expr)) (body : List Expr) : Expr :=
  .app (lambda [name] [set! name (lambda (bs.map (·.1)) body), call name (bs.map (·.2))]) [unspec]

/-- `or`: /repo/mes/module/mes/base.mes:83-89. -/
def or' : List Expr → Expr
  | [] => no
  | [e] => e
  | e :: es => .app (lambda ["r"] [.ite (v "r") (v "r") (or' es)]) [e]

/-- `and`: /repo/mes/module/mes/base.mes:77-81. -/
def and' : List Expr → Expr
  | [] => yes
  | [e] => e
  | e :: es => .ite e (and' es) no

/-- `cond`, for clauses `(test body …)` without `=>`: /repo/mes/module/mes/base.mes:104-118.  `(pair? clauses)` is computed by the
macro; behind the last clause the value of an `if` without alternative is inserted. -/
def cond : List (Expr × List Expr) → Expr
  | [] => .ite no unspec unspec
  | [(e, body)] => .ite yes (.app (lambda ["test"] [.ite (v "test") (.app (lambda [] (v "test" :: body)) []) unspec]) [e]) unspec
  | (e, body) :: cs => .ite yes (.app (lambda ["test"] [.ite (v "test") (.app (lambda [] (v "test" :: body)) []) (cond cs)]) [e]) unspec

/-! ### base.mes, boot-0.scm -/

/-- `not`: /repo/mes/module/mes/boot-0.scm:45. -/
def not : Value := proc ["x"] [.ite (v "x") no yes]

/-- `cadr`, `cddr`, `caar`, `cdar`: /repo/mes/module/mes/base.mes:30-33. -/
def cadr : Value := proc ["x"] [call "car" [call "cdr" [v "x"]]]
def cddr : Value := proc ["x"] [call "cdr" [call "cdr" [v "x"]]]
def caar : Value := proc ["x"] [call "car" [call "car" [v "x"]]]
def cdar : Value := proc ["x"] [call "cdr" [call "car" [v "x"]]]

/-- `caadr`, `caddr`, `cdadr`, `cdddr`: /repo/mes/module/mes/base.mes:37-44. -/
def caadr : Value := proc ["x"] [call "car" [call "car" [call "cdr" [v "x"]]]]
def caddr : Value := proc ["x"] [call "car" [call "cdr" [call "cdr" [v "x"]]]]
def cdadr : Value := proc ["x"] [call "cdr" [call "car" [call "cdr" [v "x"]]]]
def cdddr : Value := proc ["x"] [call "cdr" [call "cdr" [call "cdr" [v "x"]]]]

/-- `map`: /repo/mes/module/mes/base.mes:122-135; `(error …)` stands for the error message. -/
def map : Value := procRest ["f", "h"] "t"
  [.ite (or' [call "null?" [v "h"], and' [call "pair?" [v "t"], call "null?" [call "car" [v "t"]]],
      and' [call "pair?" [v "t"], call "pair?" [call "cdr" [v "t"]], call "null?" [call "cadr" [v "t"]]]]) nil'
    (.ite (call "null?" [v "t"]) (call "cons" [call "f" [call "car" [v "h"]], call "map" [v "f", call "cdr" [v "h"]]])
      (.ite (call "null?" [call "cdr" [v "t"]])
        (call "cons" [call "f" [call "car" [v "h"], call "caar" [v "t"]], call "map" [v "f", call "cdr" [v "h"], call "cdar" [v "t"]]])
        (.ite (call "null?" [call "cddr" [v "t"]])
          (call "cons" [call "f" [call "car" [v "h"], call "caar" [v "t"], call "caadr" [v "t"]],
            call "map" [v "f", call "cdr" [v "h"], call "cdar" [v "t"], call "cdadr" [v "t"]]])
          (.ite (call "null?" [call "cdddr" [v "t"]])
            (call "cons" [call "f" [call "car" [v "h"], call "caar" [v "t"], call "caadr" [v "t"], call "car" [call "caddr" [v "t"]]],
              call "map" [v "f", call "cdr" [v "h"], call "cdar" [v "t"], call "cdadr" [v "t"], call "cdr" [call "caddr" [v "t"]]]])
            (call "error" [])))))]

/-! ### scm.mes -/

/-- `for-each`: /repo/mes/module/mes/scm.mes:59-64. -/
def forEach : Value := procRest ["f", "l"] "xr"
  [.ifOnly (and' [call "pair?" [v "l"], or' [call "null?" [v "xr"], call "pair?" [call "car" [v "xr"]]]])
    (.ite (call "null?" [v "xr"]) (.begin [call "f" [call "car" [v "l"]], call "for-each" [v "f", call "cdr" [v "l"]]])
      (.ifOnly (call "null?" [call "cdr" [v "xr"]])
        (.begin [call "f" [call "car" [v "l"], call "caar" [v "xr"]], call "for-each" [v "f", call "cdr" [v "l"], call "cdar" [v "xr"]]])))]

/-- `make-list`: /repo/mes/module/mes/scm.mes:142-146. -/
def makeList : Value := procRest ["n"] "x"
  [let' [("fill", .ite (call "pair?" [v "x"]) (call "car" [v "x"]) unspec)]
    [loop "loop" [("n", v "n")]
      [.ite (call "=" [int 0, v "n"]) nil' (call "cons" [v "fill", call "loop" [call "-" [v "n", int 1]]])]]]

/-- `list-ref`: /repo/mes/module/mes/scm.mes:148-151. -/
def listRef : Value := proc ["lst", "k"]
  [loop "loop" [("lst", v "lst"), ("k", v "k")]
    [.ite (call "=" [int 0, v "k"]) (call "car" [v "lst"]) (call "loop" [call "cdr" [v "lst"], call "-" [v "k", int 1]])]]

/-- `list-head`: /repo/mes/module/mes/scm.mes:158-160. -/
def listHead : Value := proc ["x", "n"]
  [.ite (call "=" [int 0, v "n"]) nil' (call "cons" [call "car" [v "x"], call "list-head" [call "cdr" [v "x"], call "-" [v "n", int 1]]])]

/-- `list-tail`: /repo/mes/module/mes/scm.mes:162-164. -/
def listTail : Value := proc ["x", "n"]
  [.ite (call "=" [int 0, v "n"]) (v "x") (call "list-tail" [call "cdr" [v "x"], call "-" [v "n", int 1]])]

/-- `reverse`: /repo/mes/module/mes/scm.mes:170-173. -/
def reverse : Value := proc ["lst"]
  [loop "loop" [("lst", v "lst"), ("r", nil')]
    [.ite (call "null?" [v "lst"]) (v "r") (call "loop" [call "cdr" [v "lst"], call "cons" [call "car" [v "lst"], v "r"]])]]

/-- `filter`: /repo/mes/module/mes/scm.mes:175-180, and the same text in /repo/mes/module/srfi/srfi-1.mes:33-38. -/
def filter : Value := proc ["pred", "lst"]
  [loop "loop" [("lst", v "lst")]
    [.ite (call "null?" [v "lst"]) nil'
      (.ite (call "pred" [call "car" [v "lst"]])
        (call "cons" [call "car" [v "lst"], call "loop" [call "cdr" [v "lst"]]])
        (call "loop" [call "cdr" [v "lst"]]))]]

/-! ### srfi-1 -/

/-- `find`: /repo/mes/module/srfi/srfi-1.mes:27-31. -/
def find : Value := proc ["pred", "lst"]
  [loop "loop" [("lst", v "lst")]
    [.ite (call "null?" [v "lst"]) no
      (.ite (call "pred" [call "car" [v "lst"]]) (call "car" [v "lst"]) (call "loop" [call "cdr" [v "lst"]]))]]

/-- `filter-map`: /repo/mes/module/srfi/srfi-1.mes:43-53; `(error …)` stands for the error message. -/
def filterMap : Value := procRest ["f", "h"] "t"
  [.ite (call "null?" [v "h"]) nil'
    (.ite (call "null?" [v "t"])
      (let' [("r", call "f" [call "car" [v "h"]])]
        [.ite (v "r") (call "cons" [v "r", call "filter-map" [v "f", call "cdr" [v "h"]]]) (call "filter-map" [v "f", call "cdr" [v "h"]])])
      (.ite (call "null?" [call "cdr" [v "t"]])
        (let' [("r", call "f" [call "car" [v "h"], call "caar" [v "t"]])]
          [.ite (v "r") (call "cons" [v "r", call "filter-map" [v "f", call "cdr" [v "h"], call "cdar" [v "t"]]])
            (call "filter-map" [v "f", call "cdr" [v "h"], call "cdar" [v "t"]])])
        (call "error" [])))]

/-- `fold`: /repo/mes/module/srfi/srfi-1.mes:55-70.  The last `if` has four parts, of which the evaluator ignores the last one. -/
def fold : Value := procRest ["proc", "init", "lst1"] "rest"
  [.ite (call "null?" [v "rest"])
    (loop "loop" [("lst1", v "lst1"), ("result", v "init")]
      [.ite (call "null?" [v "lst1"]) (v "result")
        (call "loop" [call "cdr" [v "lst1"], call "proc" [call "car" [v "lst1"], v "result"]])])
    (.ite (call "null?" [call "cdr" [v "rest"]])
      (loop "loop" [("lst1", v "lst1"), ("lst2", call "car" [v "rest"]), ("result", v "init")]
        [.ite (or' [call "null?" [v "lst1"], call "null?" [v "lst2"]]) (v "result")
          (call "loop" [call "cdr" [v "lst1"], call "cdr" [v "lst2"], call "proc" [call "car" [v "lst1"], call "car" [v "lst2"], v "result"]])])
      (loop "loop" [("lst1", v "lst1"), ("lst2", call "car" [v "rest"]), ("lst3", call "cadr" [v "rest"]), ("result", v "init")]
        [.ite (or' [call "null?" [v "lst1"], call "null?" [v "lst2"], call "null?" [v "lst3"]]) (v "result")
          (call "loop" [call "cdr" [v "lst1"], call "cdr" [v "lst2"], call "cdr" [v "lst3"],
            call "proc" [call "car" [v "lst1"], call "car" [v "lst2"], call "car" [v "lst3"], v "result"]])]))]

/-- `fold-right`: /repo/mes/module/srfi/srfi-1.mes:72-87. -/
def foldRight : Value := procRest ["proc", "init", "lst1"] "rest"
  [.ite (call "null?" [v "rest"])
    (loop "loop" [("lst", v "lst1")]
      [.ite (call "null?" [v "lst"]) (v "init") (call "proc" [call "car" [v "lst"], call "loop" [call "cdr" [v "lst"]]])])
    (.ite (call "null?" [call "cdr" [v "rest"]])
      (loop "loop" [("lst1", v "lst1"), ("lst2", call "car" [v "rest"])]
        [.ite (or' [call "null?" [v "lst1"], call "null?" [v "lst2"]]) (v "init")
          (call "proc" [call "car" [v "lst1"], call "car" [v "lst2"], call "loop" [call "cdr" [v "lst1"], call "cdr" [v "lst2"]]])])
      (loop "loop" [("lst1", v "lst1"), ("lst2", call "car" [v "rest"]), ("lst3", call "cadr" [v "rest"])]
        [.ite (or' [call "null?" [v "lst1"], call "null?" [v "lst2"], call "null?" [v "lst3"]]) (v "init")
          (call "proc" [call "car" [v "lst1"], call "car" [v "lst2"], call "car" [v "lst3"],
            call "loop" [call "cdr" [v "lst1"], call "cdr" [v "lst2"], call "cdr" [v "lst3"]]])]))]

/-- `remove`: /repo/mes/module/srfi/srfi-1.mes:103. -/
def remove : Value := proc ["pred", "lst"] [call "filter" [lambda ["x"] [call "not" [call "pred" [v "x"]]], v "lst"]]

/-- `srfi-1:member`: /repo/mes/module/srfi/srfi-1.mes:109-112. -/
def member3 : Value := proc ["x", "lst", "eq"]
  [.ite (call "null?" [v "lst"]) no
    (.ite (call "eq" [v "x", call "car" [v "lst"]]) (v "lst") (call "srfi-1:member" [v "x", call "cdr" [v "lst"], v "eq"]))]

/-- `member`: /repo/mes/module/srfi/srfi-1.mes:116-118. -/
def member : Value := procRest ["x", "lst"] "rest"
  [.ite (call "null?" [v "rest"]) (call "mes:member" [v "x", v "lst"]) (call "srfi-1:member" [v "x", v "lst", call "car" [v "rest"]])]

/-- `delete-duplicates`: /repo/mes/module/srfi/srfi-1.mes:135-142. -/
def deleteDuplicates : Value := procRest ["lst"] "equal"
  [let' [("equal", and' [call "pair?" [v "equal"], call "car" [v "equal"]])]
    [loop "loop" [("lst", v "lst")]
      [.ite (call "null?" [v "lst"]) nil'
        (.ite (.ite (v "equal") (call "member" [call "car" [v "lst"], call "cdr" [v "lst"], v "equal"])
            (call "member" [call "car" [v "lst"], call "cdr" [v "lst"]]))
          (call "loop" [call "cdr" [v "lst"]])
          (call "cons" [call "car" [v "lst"], call "loop" [call "cdr" [v "lst"]]]))]]]

/-- `take-while`: /repo/mes/module/srfi/srfi-1.mes:146-148. -/
def takeWhile : Value := proc ["pred", "lst"]
  [.ite (or' [call "null?" [v "lst"], call "not" [call "pred" [call "car" [v "lst"]]]]) nil'
    (call "cons" [call "car" [v "lst"], call "take-while" [v "pred", call "cdr" [v "lst"]]])]

/-- `any1`: /repo/mes/module/srfi/srfi-1.scm:41-48. -/
def any1 : Value := proc ["pred", "ls"]
  [loop "lp" [("ls", v "ls")]
    [cond [(call "null?" [v "ls"], [no]),
      (call "null?" [call "cdr" [v "ls"]], [call "pred" [call "car" [v "ls"]]]),
      (v "else", [or' [call "pred" [call "car" [v "ls"]], call "lp" [call "cdr" [v "ls"]]]])]]]

/-- `every1`: /repo/mes/module/srfi/srfi-1.scm:61-68. -/
def every1 : Value := proc ["pred", "ls"]
  [loop "lp" [("ls", v "ls")]
    [cond [(call "null?" [v "ls"], [yes]),
      (call "null?" [call "cdr" [v "ls"]], [call "pred" [call "car" [v "ls"]]]),
      (v "else", [and' [call "pred" [call "car" [v "ls"]], call "lp" [call "cdr" [v "ls"]]]])]]]

/-- `list-index` for one list: /repo/mes/module/srfi/srfi-1.scm:70-77; the case of several lists is left out. -/
def listIndex : Value := procRest ["pred", "clist1"] "rest"
  [.ite (call "null?" [v "rest"])
    (loop "lp" [("l", v "clist1"), ("i", int 0)]
      [.ite (call "null?" [v "l"]) no
        (.ite (call "pred" [call "car" [v "l"]]) (v "i") (call "lp" [call "cdr" [v "l"], call "+" [v "i", int 1]]))])
    (call "error" [])]

/-- The variables that the library uses, with their values: the builtins (the numbers are those of Spec/Builtins) and the procedures
above. -/
def table : List (String × Value) :=
  [("car", .prim 1 141), ("cdr", .prim 1 142), ("list", .prim (-1) 143), ("null?", .prim 1 144), ("eq?", .prim 2 145), ("length", .prim 1 148),
   ("append2", .prim 2 150), ("cons", .prim 2 171), ("pair?", .prim 1 192), ("char->integer", .prim 1 193), ("integer->char", .prim 1 194),
   (">", .prim (-1) 196), ("<", .prim (-1) 197), ("=", .prim (-1) 198), ("-", .prim (-1) 199), ("+", .prim (-1) 200), ("*", .prim (-1) 203),
   ("else", .obj c_t), ("not", not), ("cadr", cadr), ("cddr", cddr), ("caar", caar), ("cdar", cdar), ("caadr", caadr), ("caddr", caddr),
   ("cdadr", cdadr), ("cdddr", cdddr), ("map", map), ("for-each", forEach),
   ("make-list", makeList), ("list-ref", listRef), ("list-head", listHead), ("list-tail", listTail), ("reverse", reverse), ("filter", filter),
   ("find", find), ("filter-map", filterMap), ("fold", fold), ("fold-right", foldRight), ("remove", remove), ("srfi-1:member", member3),
   ("member", member), ("delete-duplicates", deleteDuplicates), ("take-while", takeWhile), ("any1", any1), ("every1", every1), ("list-index", listIndex)]

end Mes.Lib
