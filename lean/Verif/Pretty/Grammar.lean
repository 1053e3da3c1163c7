import Verif.Pretty.Mini
import Verif.Pretty.Lr

/-!
# The grammar of PrettyPFA (prettypfa.py 1215-1240 and 1456-2104)

The kinds of tokens, the productions of the `p_…` functions with their docstrings, the precedences, and what the functions do.  The productions that only whole
documents have (`if self.wholeDocument`) are here too; what they make is in `Verif/Pretty/Document.lean`.

Simplification: the functions are applied to the finished tree instead of during the parse, so an exception of one of them is not raised before a syntax error that
comes later in the text.
-/

namespace Verif.Pretty
open Avro Ast Reader Lr

/-- The kinds of tokens: 1215-1240, and `$end`. -/
inductive Tm where
  | eof | number | string | rawstring | replacement | dotname | lparen | rparen | lbracket | rbracket | lcurly | rcurly | rarrow | plus | minus | times | fdiv | mod | rem | pow | eq | ne | lt
  | le | gt | ge | and | or | xor | not | bitand | bitor | bitxor | bitnot | idiv | fcn | if_ | else_ | while_ | do_ | until_
  | for_ | foreach | cast | as_ | ifnotnull | unpack | try_ | var | to_ | init | comma | semi | colon | equal | at_ | headerStart | header
deriving DecidableEq

/-- All of them. -/
def tms : List Tm := [.eof, .number, .string, .rawstring, .replacement, .dotname, .lparen, .rparen, .lbracket, .rbracket, .lcurly, .rcurly, .rarrow, .plus, .minus, .times, .fdiv, .mod, .rem, .pow, .eq, .ne, .lt, .le, .gt, .ge, .and, .or, .xor, .not, .bitand, .bitor, .bitxor, .bitnot, .idiv, .fcn, .if_, .else_, .while_, .do_, .until_, .for_, .foreach, .cast, .as_, .ifnotnull, .unpack, .try_, .var, .to_, .init, .comma, .semi, .colon, .equal, .at_, .headerStart, .header]

/-- The symbols on the left of productions. -/
inductive Nt where
  | document | section | sections | anything | expressions | block | bracketedargs | argument | arguments | parameters | parameter | expression | rettype | fcndef | namedfcndef | namedfcndefs | cellpool | cellpools | asblock | asblocks | assignment | assignments | empty | start
deriving DecidableEq

/-- The binary operators, 1662-1682. -/
inductive Bin where
  | or | xor | and | eq | ne | lt | le | gt | ge | bitor | bitxor | bitand | plus | minus | times | fdiv | idiv | mod | rem | pow
deriving DecidableEq

@[inherit_doc Bin] def Bin.tm : Bin → Tm
  | .or => .or
  | .xor => .xor
  | .and => .and
  | .eq => .eq
  | .ne => .ne
  | .lt => .lt
  | .le => .le
  | .gt => .gt
  | .ge => .ge
  | .bitor => .bitor
  | .bitxor => .bitxor
  | .bitand => .bitand
  | .plus => .plus
  | .minus => .minus
  | .times => .times
  | .fdiv => .fdiv
  | .idiv => .idiv
  | .mod => .mod
  | .rem => .rem
  | .pow => .pow

/-- The productions: one for each line of the docstrings, in the order of the file; `start` is `S' : expressions` or `S' : document`, which ply adds. -/
inductive Pr where
  | start
  | document | sectionStart | section | sections1 | sectionsMore | anyExpr | anyExprs | anyBracketed | anyFcns | anyCells | exprs1 | exprsMore | exprsSemi | blockE
  | blockP | bracketed | argE | argP | argB | argF | args0 | args1 | argsMore | params0 | params1 | paramsMore | paramName | paramStr
  | paramRaw | repl | call | uminus | bitnot | not | bin (o : Bin) | group | rettype | fcnE | fcnB | namedE | namedB | named0
  | named1 | namedMore | namedSemi | cellBlock | cellBracketed | cellNumber | cellStr | cellRaw | cellName | cellRepl | cells1 | cellsMore | cellsSemi | if1
  | if2 | while_ | doUntil | for_ | each1 | each2 | pairStr | pairRaw | pairName | asblock | asblocks1 | asblocksMore | cast1 | cast2
  | ifnn1 | ifnn2 | unpack1 | unpack2 | try1 | try2 | try3 | genSet | assignment | assigns1 | assignsMore | let_ | set_ | genGet
  | get | to1 | to2 | to3 | to4 | to5 | enumSym | sBlock | sNumber | sStr | sRaw | sName | empty
deriving DecidableEq

/-- All productions, `start` first. -/
def prs : List Pr := [.start, .document, .sectionStart, .section, .sections1, .sectionsMore, .anyExpr, .anyExprs, .anyBracketed, .anyFcns, .anyCells, .exprs1, .exprsMore, .exprsSemi, .blockE, .blockP, .bracketed, .argE, .argP, .argB, .argF, .args0, .args1, .argsMore, .params0, .params1, .paramsMore, .paramName, .paramStr, .paramRaw, .repl, .call, .uminus, .bitnot, .not, .bin .or, .bin .xor, .bin .and, .bin .eq, .bin .ne, .bin .lt, .bin .le, .bin .gt, .bin .ge, .bin .bitor, .bin .bitxor, .bin .bitand, .bin .plus, .bin .minus, .bin .times, .bin .fdiv, .bin .idiv, .bin .mod, .bin .rem, .bin .pow, .group, .rettype, .fcnE, .fcnB, .namedE, .namedB, .named0, .named1, .namedMore, .namedSemi, .cellBlock, .cellBracketed, .cellNumber, .cellStr, .cellRaw, .cellName, .cellRepl, .cells1, .cellsMore, .cellsSemi, .if1, .if2, .while_, .doUntil, .for_, .each1, .each2, .pairStr, .pairRaw, .pairName, .asblock, .asblocks1, .asblocksMore, .cast1, .cast2, .ifnn1, .ifnn2, .unpack1, .unpack2, .try1, .try2, .try3, .genSet, .assignment, .assigns1, .assignsMore, .let_, .set_, .genGet, .get, .to1, .to2, .to3, .to4, .to5, .enumSym, .sBlock, .sNumber, .sStr, .sRaw, .sName, .empty]

/-- The left side. -/
def lhs : Pr → Nt
  | .start => .start
  | .document => .document
  | .sectionStart => .section
  | .section => .section
  | .sections1 => .sections
  | .sectionsMore => .sections
  | .anyExpr => .anything
  | .anyExprs => .anything
  | .anyBracketed => .anything
  | .anyFcns => .anything
  | .anyCells => .anything
  | .exprs1 => .expressions
  | .exprsMore => .expressions
  | .exprsSemi => .expressions
  | .blockE => .block
  | .blockP => .block
  | .bracketed => .bracketedargs
  | .argE => .argument
  | .argP => .argument
  | .argB => .argument
  | .argF => .argument
  | .args0 => .arguments
  | .args1 => .arguments
  | .argsMore => .arguments
  | .params0 => .parameters
  | .params1 => .parameters
  | .paramsMore => .parameters
  | .paramName => .parameter
  | .paramStr => .parameter
  | .paramRaw => .parameter
  | .repl => .expression
  | .call => .expression
  | .uminus => .expression
  | .bitnot => .expression
  | .not => .expression
  | .bin _ => .expression
  | .group => .expression
  | .rettype => .rettype
  | .fcnE => .fcndef
  | .fcnB => .fcndef
  | .namedE => .namedfcndef
  | .namedB => .namedfcndef
  | .named0 => .namedfcndefs
  | .named1 => .namedfcndefs
  | .namedMore => .namedfcndefs
  | .namedSemi => .namedfcndefs
  | .cellBlock => .cellpool
  | .cellBracketed => .cellpool
  | .cellNumber => .cellpool
  | .cellStr => .cellpool
  | .cellRaw => .cellpool
  | .cellName => .cellpool
  | .cellRepl => .cellpool
  | .cells1 => .cellpools
  | .cellsMore => .cellpools
  | .cellsSemi => .cellpools
  | .if1 => .expression
  | .if2 => .expression
  | .while_ => .expression
  | .doUntil => .expression
  | .for_ => .expression
  | .each1 => .expression
  | .each2 => .expression
  | .pairStr => .expression
  | .pairRaw => .expression
  | .pairName => .expression
  | .asblock => .asblock
  | .asblocks1 => .asblocks
  | .asblocksMore => .asblocks
  | .cast1 => .expression
  | .cast2 => .expression
  | .ifnn1 => .expression
  | .ifnn2 => .expression
  | .unpack1 => .expression
  | .unpack2 => .expression
  | .try1 => .expression
  | .try2 => .expression
  | .try3 => .expression
  | .genSet => .expression
  | .assignment => .assignment
  | .assigns1 => .assignments
  | .assignsMore => .assignments
  | .let_ => .expression
  | .set_ => .expression
  | .genGet => .expression
  | .get => .expression
  | .to1 => .expression
  | .to2 => .expression
  | .to3 => .expression
  | .to4 => .expression
  | .to5 => .expression
  | .enumSym => .expression
  | .sBlock => .expression
  | .sNumber => .expression
  | .sStr => .expression
  | .sRaw => .expression
  | .sName => .expression
  | .empty => .empty

/-- The right side; the production `start` is `S' : expressions` for expressions (`whole = false`) and `S' : document` for documents. -/
def rhs (whole : Bool) : Pr → List (Sym Tm Nt)
  | .start => [.n (if whole then .document else .expressions)]
  | .document => [.n .sections]
  | .sectionStart => [.t .headerStart, .n .anything]
  | .section => [.t .header, .n .anything]
  | .sections1 => [.n .section]
  | .sectionsMore => [.n .sections, .n .section]
  | .anyExpr => [.n .expression]
  | .anyExprs => [.n .expressions]
  | .anyBracketed => [.n .bracketedargs]
  | .anyFcns => [.n .namedfcndefs]
  | .anyCells => [.n .cellpools]
  | .exprs1 => [.n .expression]
  | .exprsMore => [.n .expressions, .t .semi, .n .expression]
  | .exprsSemi => [.n .expressions, .t .semi]
  | .blockE => [.t .lcurly, .n .expressions, .t .rcurly]
  | .blockP => [.t .lcurly, .n .parameters, .t .rcurly]
  | .bracketed => [.t .lbracket, .n .arguments, .t .rbracket]
  | .argE => [.n .expression]
  | .argP => [.n .parameter]
  | .argB => [.n .bracketedargs]
  | .argF => [.n .fcndef]
  | .args0 => [.n .empty]
  | .args1 => [.n .argument]
  | .argsMore => [.n .arguments, .t .comma, .n .argument]
  | .params0 => [.n .empty]
  | .params1 => [.n .parameter]
  | .paramsMore => [.n .parameters, .t .comma, .n .parameter]
  | .paramName => [.t .dotname, .t .colon, .n .argument]
  | .paramStr => [.t .string, .t .colon, .n .argument]
  | .paramRaw => [.t .rawstring, .t .colon, .n .argument]
  | .repl => [.t .replacement]
  | .call => [.t .dotname, .t .lparen, .n .arguments, .t .rparen]
  | .uminus => [.t .minus, .n .expression]
  | .bitnot => [.t .bitnot, .n .expression]
  | .not => [.t .not, .n .expression]
  | .bin o => [.n .expression, .t o.tm, .n .expression]
  | .group => [.t .lparen, .n .expression, .t .rparen]
  | .rettype => [.t .rarrow, .n .expression]
  | .fcnE => [.t .fcn, .t .lparen, .n .parameters, .n .rettype, .t .rparen, .n .expression]
  | .fcnB => [.t .fcn, .t .lparen, .n .parameters, .n .rettype, .t .rparen, .n .block]
  | .namedE => [.t .dotname, .t .equal, .t .fcn, .t .lparen, .n .parameters, .n .rettype, .t .rparen, .n .expression]
  | .namedB => [.t .dotname, .t .equal, .t .fcn, .t .lparen, .n .parameters, .n .rettype, .t .rparen, .n .block]
  | .named0 => [.n .empty]
  | .named1 => [.n .namedfcndef]
  | .namedMore => [.n .namedfcndefs, .t .semi, .n .namedfcndef]
  | .namedSemi => [.n .namedfcndefs, .t .semi]
  | .cellBlock => [.t .dotname, .t .lparen, .n .arguments, .t .rparen, .t .equal, .n .block]
  | .cellBracketed => [.t .dotname, .t .lparen, .n .arguments, .t .rparen, .t .equal, .n .bracketedargs]
  | .cellNumber => [.t .dotname, .t .lparen, .n .arguments, .t .rparen, .t .equal, .t .number]
  | .cellStr => [.t .dotname, .t .lparen, .n .arguments, .t .rparen, .t .equal, .t .string]
  | .cellRaw => [.t .dotname, .t .lparen, .n .arguments, .t .rparen, .t .equal, .t .rawstring]
  | .cellName => [.t .dotname, .t .lparen, .n .arguments, .t .rparen, .t .equal, .t .dotname]
  | .cellRepl => [.t .dotname, .t .lparen, .n .arguments, .t .rparen, .t .equal, .t .replacement]
  | .cells1 => [.n .cellpool]
  | .cellsMore => [.n .cellpools, .t .semi, .n .cellpool]
  | .cellsSemi => [.n .cellpools, .t .semi]
  | .if1 => [.t .if_, .t .lparen, .n .expression, .t .rparen, .n .expression]
  | .if2 => [.t .if_, .t .lparen, .n .expression, .t .rparen, .n .expression, .t .else_, .n .expression]
  | .while_ => [.t .while_, .t .lparen, .n .expression, .t .rparen, .n .expression]
  | .doUntil => [.t .do_, .n .expression, .t .until_, .t .lparen, .n .expression, .t .rparen]
  | .for_ => [.t .for_, .t .lparen, .n .assignments, .t .semi, .n .expression, .t .semi, .n .assignments, .t .rparen, .n .expression]
  | .each1 => [.t .foreach, .t .lparen, .n .parameter, .t .rparen, .n .expression]
  | .each2 => [.t .foreach, .t .lparen, .n .parameter, .t .comma, .n .parameter, .t .rparen, .n .expression]
  | .pairStr => [.t .foreach, .t .lparen, .t .string, .t .comma, .n .parameter, .t .rparen, .n .expression]
  | .pairRaw => [.t .foreach, .t .lparen, .t .rawstring, .t .comma, .n .parameter, .t .rparen, .n .expression]
  | .pairName => [.t .foreach, .t .lparen, .t .dotname, .t .comma, .n .parameter, .t .rparen, .n .expression]
  | .asblock => [.t .as_, .t .lparen, .n .parameter, .t .rparen, .n .expression]
  | .asblocks1 => [.n .asblock]
  | .asblocksMore => [.n .asblocks, .n .asblock]
  | .cast1 => [.t .cast, .t .lparen, .n .expression, .t .rparen, .t .lcurly, .n .asblocks, .t .rcurly]
  | .cast2 => [.t .cast, .t .lparen, .n .expression, .t .comma, .n .parameter, .t .rparen, .t .lcurly, .n .asblocks, .t .rcurly]
  | .ifnn1 => [.t .ifnotnull, .t .lparen, .n .parameters, .t .rparen, .n .expression]
  | .ifnn2 => [.t .ifnotnull, .t .lparen, .n .parameters, .t .rparen, .n .expression, .t .else_, .n .expression]
  | .unpack1 => [.t .unpack, .t .lparen, .n .expression, .t .comma, .n .parameters, .t .rparen, .n .expression]
  | .unpack2 => [.t .unpack, .t .lparen, .n .expression, .t .comma, .n .parameters, .t .rparen, .n .expression, .t .else_, .n .expression]
  | .try1 => [.t .try_, .n .expression]
  | .try2 => [.t .try_, .t .lparen, .n .expression, .t .rparen, .n .expression]
  | .try3 => [.t .try_, .t .lparen, .n .arguments, .t .rparen, .n .expression]
  | .genSet => [.n .expression, .t .lbracket, .n .arguments, .t .rbracket, .t .equal, .n .expression]
  | .assignment => [.t .dotname, .t .equal, .n .expression]
  | .assigns1 => [.n .assignment]
  | .assignsMore => [.n .assignments, .t .comma, .n .assignment]
  | .let_ => [.t .var, .n .assignments]
  | .set_ => [.n .assignments]
  | .genGet => [.n .expression, .t .lbracket, .n .arguments, .t .rbracket]
  | .get => [.t .dotname, .t .lbracket, .n .arguments, .t .rbracket]
  | .to1 => [.t .dotname, .t .lbracket, .n .arguments, .t .rbracket, .t .equal, .n .expression]
  | .to2 => [.t .dotname, .t .lbracket, .n .arguments, .t .rbracket, .t .to_, .n .argument]
  | .to3 => [.t .dotname, .t .lbracket, .n .arguments, .t .rbracket, .t .to_, .n .argument, .t .init, .n .expression]
  | .to4 => [.t .dotname, .t .to_, .n .argument]
  | .to5 => [.t .dotname, .t .to_, .n .argument, .t .init, .n .expression]
  | .enumSym => [.t .dotname, .t .at_, .t .dotname]
  | .sBlock => [.n .block]
  | .sNumber => [.t .number]
  | .sStr => [.t .string]
  | .sRaw => [.t .rawstring]
  | .sName => [.t .dotname]
  | .empty => []

/-- The line of prettypfa.py, by which ply chooses between two reductions. -/
def line : Pr → Nat
  | .start => 0
  | .document => 1457
  | .sectionStart => 1541
  | .section => 1542
  | .sections1 => 1546
  | .sectionsMore => 1547
  | .anyExpr => 1555
  | .anyExprs => 1556
  | .anyBracketed => 1557
  | .anyFcns => 1558
  | .anyCells => 1559
  | .exprs1 => 1563
  | .exprsMore => 1564
  | .exprsSemi => 1572
  | .blockE => 1576
  | .blockP => 1577
  | .bracketed => 1582
  | .argE => 1587
  | .argP => 1588
  | .argB => 1589
  | .argF => 1590
  | .args0 => 1594
  | .args1 => 1595
  | .argsMore => 1596
  | .params0 => 1607
  | .params1 => 1608
  | .paramsMore => 1609
  | .paramName => 1620
  | .paramStr => 1621
  | .paramRaw => 1622
  | .repl => 1639
  | .call => 1643
  | .uminus => 1648
  | .bitnot => 1653
  | .not => 1658
  | .bin .or => 1663
  | .bin .xor => 1664
  | .bin .and => 1665
  | .bin .eq => 1666
  | .bin .ne => 1667
  | .bin .lt => 1668
  | .bin .le => 1669
  | .bin .gt => 1670
  | .bin .ge => 1671
  | .bin .bitor => 1672
  | .bin .bitxor => 1673
  | .bin .bitand => 1674
  | .bin .plus => 1675
  | .bin .minus => 1676
  | .bin .times => 1677
  | .bin .fdiv => 1678
  | .bin .idiv => 1679
  | .bin .mod => 1680
  | .bin .rem => 1681
  | .bin .pow => 1682
  | .group => 1726
  | .rettype => 1730
  | .fcnE => 1734
  | .fcnB => 1735
  | .namedE => 1754
  | .namedB => 1755
  | .named0 => 1773
  | .named1 => 1774
  | .namedMore => 1775
  | .namedSemi => 1786
  | .cellBlock => 1790
  | .cellBracketed => 1791
  | .cellNumber => 1792
  | .cellStr => 1793
  | .cellRaw => 1794
  | .cellName => 1795
  | .cellRepl => 1796
  | .cells1 => 1861
  | .cellsMore => 1862
  | .cellsSemi => 1870
  | .if1 => 1874
  | .if2 => 1875
  | .while_ => 1891
  | .doUntil => 1897
  | .for_ => 1903
  | .each1 => 1907
  | .each2 => 1908
  | .pairStr => 1927
  | .pairRaw => 1928
  | .pairName => 1929
  | .asblock => 1937
  | .asblocks1 => 1941
  | .asblocksMore => 1942
  | .cast1 => 1950
  | .cast2 => 1951
  | .ifnn1 => 1969
  | .ifnn2 => 1970
  | .unpack1 => 1982
  | .unpack2 => 1983
  | .try1 => 1996
  | .try2 => 1997
  | .try3 => 1998
  | .genSet => 2011
  | .assignment => 2015
  | .assigns1 => 2019
  | .assignsMore => 2020
  | .let_ => 2027
  | .set_ => 2032
  | .genGet => 2037
  | .get => 2041
  | .to1 => 2045
  | .to2 => 2046
  | .to3 => 2047
  | .to4 => 2057
  | .to5 => 2058
  | .enumSym => 2068
  | .sBlock => 2072
  | .sNumber => 2073
  | .sStr => 2074
  | .sRaw => 2075
  | .sName => 2076
  | .empty => 2094

/-- Associativity. -/
inductive Assoc where
  | left | right | nonassoc
deriving DecidableEq

/-- The precedence of a token, 1625-1636; ply gives `('right', 0)` to all others. -/
def prec : Tm → Assoc × Nat
  | .or => (.left, 1)
  | .xor => (.left, 2)
  | .and => (.left, 3)
  | .not => (.right, 4)
  | .eq | .ne | .lt | .le | .gt | .ge => (.nonassoc, 5)
  | .bitor => (.left, 6)
  | .bitxor => (.left, 7)
  | .bitand => (.left, 8)
  | .plus | .minus => (.left, 9)
  | .times | .fdiv | .idiv | .mod | .rem => (.left, 10)
  | .bitnot => (.right, 11)
  | .pow => (.left, 12)
  | _ => (.right, 0)

/-- The precedence of a production: that of `%prec`, or of its last token (ply.yacc `add_production`). -/
def prodPrec (whole : Bool) (p : Pr) : Assoc × Nat := match p with
  | .uminus => (.right, 11)
  | p => (rhs whole p).foldl (fun r s => match s with | .t a => prec a | .n _ => r) (.right, 0)

/-! ## Tokens and what is made of them -/

/-- The value of a token. -/
inductive TVal where
  | none
  | str (s : String)
  | num (v : Val)
  | sub (s : Sub)

/-- A token; the lexer never makes one of kind `eof`. -/
structure Tok where
  kind : Tm
  val : TVal
  real : kind ≠ .eof

/-- What a `p_…` function gives. -/
inductive V where
  /-- a token -/
  | tok (t : Tok)
  /-- a `Mini…` object -/
  | mini (m : Mini)
  /-- a list of them -/
  | minis (l : List Mini)
  /-- `None` -/
  | none
  /-- the result of a production of whole documents -/
  | other

/-- Not an error of the code: no tree of the grammar comes here (`sem_defined`). -/
def unreachable : Err := .py "unreachable"

/-- The name that the functions give to an operator, 1683-1723. -/
def Bin.name : Bin → String
  | .or => "||"
  | .xor => "^^"
  | .and => "&&"
  | .eq => "=="
  | .ne => "!="
  | .lt => "<"
  | .le => "<="
  | .gt => ">"
  | .ge => ">="
  | .bitor => "|"
  | .bitxor => "^"
  | .bitand => "&"
  | .plus => "+"
  | .minus => "-"
  | .times => "*"
  | .fdiv => "/"
  | .idiv => "//"
  | .mod => "%"
  | .rem => "%%"
  | .pow => "**"

/-- The text of a token that has one. -/
def Tok.str (t : Tok) : String := match t.val with
  | .str s => s
  | _ => ""

/-- The number of a token that has one. -/
def Tok.num (t : Tok) : Val := match t.val with
  | .num v => v
  | _ => .null

/-- The substitution of a token that has one. -/
def Tok.sub (t : Tok) : Sub := match t.val with
  | .sub s => s
  | _ => .data .null

/-- `MiniDotName("true")`, `MiniDotName("false")` or an exception: 1915-1920 and 1957-1962. -/
def flag : Mini → Res Bool
  | .dotName "true" => .ok true
  | .dotName "false" => .ok false
  | _ => .error pretty

/-- A parameter that must have the name `k` and be a boolean: 1912-1920 and 1954-1962. -/
def flagOf (k n : String) (v : Mini) : Res Bool := if n ≠ k then .error pretty else flag v

/-- `if` with what may be another `if` as else clause, 1875-1888. -/
def ifElse (p t e : Mini) : Mini := match e with
  | .if_ pairs el => .if_ ((p, t) :: pairs) el
  | e => .if_ [(p, t)] (some e)

/-- The body of a function, 1738-1741. -/
def bodyOf : Mini → List Mini
  | .block es => es
  | m => [m]

/-- A block as an expression: 2088-2092. -/
def blockExpr (es : List Mini) : Mini := if es.all Mini.isParam then .block es else .call "do" es

/-- The pairs of a MiniAssignment. -/
def pairsOf : Mini → List (String × Mini)
  | .assign ps _ => ps
  | _ => []

/-- What the `p_…` functions do: the first case of each is cited. -/
def sem (p : Pr) (vs : List V) : Res V := match p, vs with
  -- 1562-1573
  | .exprs1, [.mini e] => .ok (.minis [e])
  | .exprsMore, [.minis es, _, .mini e] => .ok (.minis (es ++ [e]))
  | .exprsSemi, [.minis es, _] => .ok (.minis es)
  -- 1575-1584
  | .blockE, [_, .minis es, _] => .ok (.mini (.block es))
  | .blockP, [_, .minis es, _] => .ok (.mini (.block es))
  | .bracketed, [_, .minis as, _] => .ok (.mini (.bracketed as))
  -- 1586-1617
  | .argE, [.mini m] => .ok (.mini m)
  | .argP, [.mini m] => .ok (.mini m)
  | .argB, [.mini m] => .ok (.mini m)
  | .argF, [.mini m] => .ok (.mini m)
  | .args0, [_] => .ok (.minis [])
  | .args1, [.mini m] => .ok (.minis [m])
  | .argsMore, [.minis as, _, .mini m] => .ok (.minis (as ++ [m]))
  | .params0, [_] => .ok (.minis [])
  | .params1, [.mini m] => .ok (.minis [m])
  | .paramsMore, [.minis as, _, .mini m] => .ok (.minis (as ++ [m]))
  -- 1619-1623
  | .paramName, [.tok t, _, .mini m] => .ok (.mini (.param t.str m))
  | .paramStr, [.tok t, _, .mini m] => .ok (.mini (.param t.str m))
  | .paramRaw, [.tok t, _, .mini m] => .ok (.mini (.param t.str m))
  -- 1638-1660
  | .repl, [.tok t] => .ok (.mini (.subs t.sub))
  | .call, [.tok t, _, .minis as, _] => .ok (.mini (.call t.str as))
  | .uminus, [_, .mini e] => .ok (.mini (.call "u-" [e]))
  | .bitnot, [_, .mini e] => .ok (.mini (.call "~" [e]))
  | .not, [_, .mini e] => .ok (.mini (.call "!" [e]))
  -- 1662-1727
  | .bin o, [.mini a, _, .mini b] => .ok (.mini (.call o.name [a, b]))
  | .group, [_, .mini e, _] => .ok (.mini e)
  -- 1729-1750
  | .rettype, [_, .mini e] => .ok (.mini e)
  | .fcnE, [_, _, .minis ps, .mini r, _, .mini e] => .ok (.mini (.fcnDef (params ps) r (bodyOf e)))
  | .fcnB, [_, _, .minis ps, .mini r, _, .mini e] => .ok (.mini (.fcnDef (params ps) r (bodyOf e)))
  -- 1873-1904
  | .if1, [_, _, .mini p, _, .mini t] => .ok (.mini (.if_ [(p, t)] none))
  | .if2, [_, _, .mini p, _, .mini t, _, .mini e] => .ok (.mini (ifElse p t e))
  | .while_, [_, _, .mini p, _, .mini b] => .ok (.mini (.while_ p b true))
  | .doUntil, [_, .mini b, _, _, .mini p, _] => .ok (.mini (.while_ p b false))
  | .for_, [_, _, .mini i, _, .mini p, _, .mini s, _, .mini b] => .ok (.mini (.for_ (pairsOf i) p (pairsOf s) b))
  -- 1906-1934
  | .each1, [_, _, .mini (.param n a), _, .mini b] => .ok (.mini (.foreach n a b false))
  | .each2, [_, _, .mini (.param n a), _, .mini (.param k v), _, .mini b] => andThen (flagOf "seq" k v) fun q => .ok (.mini (.foreach n a b q))
  | .pairStr, [_, _, .tok t, _, .mini (.param n a), _, .mini b] => .ok (.mini (.forkeyval t.str n a b))
  | .pairRaw, [_, _, .tok t, _, .mini (.param n a), _, .mini b] => .ok (.mini (.forkeyval t.str n a b))
  | .pairName, [_, _, .tok t, _, .mini (.param n a), _, .mini b] => .ok (.mini (.forkeyval t.str n a b))
  -- 1936-1966
  | .asblock, [_, _, .mini (.param n t), _, .mini b] => .ok (.mini (.asBlock t n b))
  | .asblocks1, [.mini b] => .ok (.minis [b])
  | .asblocksMore, [.minis bs, .mini b] => .ok (.minis (bs ++ [b]))
  | .cast1, [_, _, .mini e, _, _, .minis bs, _] => .ok (.mini (.cast e bs false))
  | .cast2, [_, _, .mini e, _, .mini (.param k v), _, _, .minis bs, _] => andThen (flagOf "partial" k v) fun q => .ok (.mini (.cast e bs q))
  -- 1968-2008
  | .ifnn1, [_, _, .minis ps, _, .mini t] => .ok (.mini (.ifNotNull (params ps) t none))
  | .ifnn2, [_, _, .minis ps, _, .mini t, _, .mini e] => .ok (.mini (.ifNotNull (params ps) t (some e)))
  | .unpack1, [_, _, .mini b, _, .minis ps, _, .mini t] => .ok (.mini (.unpack b (params ps) t none))
  | .unpack2, [_, _, .mini b, _, .minis ps, _, .mini t, _, .mini e] => .ok (.mini (.unpack b (params ps) t (some e)))
  | .try1, [_, .mini b] => .ok (.mini (.try_ b none))
  | .try2, [_, _, .mini f, _, .mini b] => .ok (.mini (.try_ b (some [f])))
  | .try3, [_, _, .minis fs, _, .mini b] => .ok (.mini (.try_ b (some fs)))
  -- 2010-2034
  | .genSet, [.mini e, _, .minis as, _, _, .mini r] => .ok (.mini (.genAssign e as r))
  | .assignment, [.tok t, _, .mini e] => .ok (.mini (.assign [(t.str, e)] false))
  | .assigns1, [.mini a] => .ok (.mini a)
  | .assignsMore, [.mini a, _, .mini b] => .ok (.mini (.assign (PyDict.update (pairsOf a) (pairsOf b)) false))
  | .let_, [_, .mini a] => .ok (.mini (.assign (pairsOf a) true))
  | .set_, [.mini a] => .ok (.mini (.assign (pairsOf a) false))
  -- 2036-2069
  | .genGet, [.mini e, _, .minis as, _] => .ok (.mini (.genGet e as))
  | .get, [.tok t, _, .minis as, _] => .ok (.mini (.get t.str as))
  | .to1, [.tok t, _, .minis as, _, _, .mini r] => .ok (.mini (.to_ t.str as true r none))
  | .to2, [.tok t, _, .minis as, _, _, .mini r] => .ok (.mini (.to_ t.str as false r none))
  | .to3, [.tok t, _, .minis as, _, _, .mini r, _, .mini i] => .ok (.mini (.to_ t.str as false r (some i)))
  | .to4, [.tok t, _, .mini r] => .ok (.mini (.to_ t.str [] false r none))
  | .to5, [.tok t, _, .mini r, _, .mini i] => .ok (.mini (.to_ t.str [] false r (some i)))
  | .enumSym, [.tok t, _, .tok u] => .ok (.mini (.enumSymbol t.str u.str))
  -- 2071-2095
  | .sBlock, [.mini (.block es)] => .ok (.mini (blockExpr es))
  | .sNumber, [.tok t] => .ok (.mini (.number t.num))
  | .sStr, [.tok t] => .ok (.mini (.string t.str))
  | .sRaw, [.tok t] => .ok (.mini (.string t.str))
  | .sName, [.tok t] => .ok (.mini (.dotName t.str))
  | .empty, [] => .ok .none
  | _, _ => .error unreachable

/-- The trees of the grammar. -/
abbrev T := Tree Pr Tok

mutual
/-- The value of a tree. -/
def value : T → Res V
  | .leaf t => .ok (.tok t)
  | .node p ks => andThen (values ks) (sem p)
@[inherit_doc value] def values : List T → Res (List V)
  | [] => .ok []
  | k :: ks => andThen (value k) fun v => andThen (values ks) fun vs => .ok (v :: vs)
end

end Verif.Pretty
