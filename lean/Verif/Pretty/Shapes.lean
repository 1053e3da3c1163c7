import Verif.Pretty.Tables

/-!
# How PrettyPFA is read

The grammar of prettypfa.py is ambiguous, and its table of precedences (1625-1636) decides.  `alts` is another grammar of (most of) the same language, without
ambiguities: operators have levels, and an operand of an operator has a level that is high enough.  `expressions_read` says that the parser reads every tree of this
grammar as that tree.

What `alts` leaves out: statements (`if`, `while`, …) are not operands unless they are in parentheses; bodies are atoms, e.g. blocks; the body of a function is a block;
a general extraction `e[…]` is only applied to calls and parentheses.
-/

set_option Elab.async false -- one check at a time, for the sake of memory

namespace Verif.Pretty
open Lr

/-- The kinds of trees. -/
inductive Sh where
  /-- an expression whose outermost operator has at least this level -/
  | x (l : Fin 14)
  /-- any expression -/
  | stmt
  /-- what a general extraction is applied to -/
  | base
  /-- a block as an expression -/
  | bexpr
  | block | exprs
  /-- arguments: any number, one or more, none or at least two -/
  | args | args1 | args2
  | params | params1 | empty | arg | bargs | param | fcndef | rettype | asblock | asblocks | assign | assigns
deriving DecidableEq

/-- All of them. -/
def shs : List Sh := (List.finRange 14).map .x ++ [.stmt, .base, .bexpr, .block, .exprs, .args, .args1, .args2, .params, .params1, .empty, .arg, .bargs, .param, .fcndef,
  .rettype, .asblock, .asblocks, .assign, .assigns]

theorem shs_all (i : Sh) : i ∈ shs := by
  cases i with
  | x l => exact List.mem_append_left _ (List.mem_map.2 ⟨l, List.mem_finRange l, rfl⟩)
  | _ => exact List.mem_append_right _ (by decide)

/-- The symbol of the grammar. -/
def shSym : Sh → Nt
  | .x _ | .stmt | .base | .bexpr => .expression
  | .block => .block
  | .exprs => .expressions
  | .args | .args1 | .args2 => .arguments
  | .params | .params1 => .parameters
  | .empty => .empty
  | .arg => .argument
  | .bargs => .bracketedargs
  | .param => .parameter
  | .fcndef => .fcndef
  | .rettype => .rettype
  | .asblock => .asblock
  | .asblocks => .asblocks
  | .assign => .assignment
  | .assigns => .assignments

/-- The binary operators with the levels of their left and right operands and their own: `a - b - c` is `(a - b) - c`, and comparisons have no chains. -/
def binary : List (Bin × Fin 14 × Fin 14 × Fin 14) :=
  [(.or, 1, 2, 1), (.xor, 2, 3, 2), (.and, 3, 4, 3),
   (.eq, 6, 6, 5), (.ne, 6, 6, 5), (.lt, 6, 6, 5), (.le, 6, 6, 5), (.gt, 6, 6, 5), (.ge, 6, 6, 5),
   (.bitor, 6, 7, 6), (.bitxor, 7, 8, 7), (.bitand, 8, 9, 8), (.plus, 9, 10, 9), (.minus, 9, 10, 9),
   (.times, 10, 11, 10), (.fdiv, 10, 11, 10), (.idiv, 10, 11, 10), (.mod, 10, 11, 10), (.rem, 10, 11, 10), (.pow, 12, 13, 12)]

/-- The unary operators with the levels of their operand, which is also their own. -/
def unary : List (Pr × Tm × Fin 14) := [(.not, .not, 4), (.uminus, .minus, 11), (.bitnot, .bitnot, 11)]

/-- Expressions without an outermost operator. -/
def atoms : List (Pr × List (Kid Tm Sh)) :=
  [(.repl, [.tok .replacement]), (.call, [.tok .dotname, .tok .lparen, .sh .args, .tok .rparen]), (.group, [.tok .lparen, .sh .stmt, .tok .rparen]),
   (.get, [.tok .dotname, .tok .lbracket, .sh .args, .tok .rbracket]), (.enumSym, [.tok .dotname, .tok .at_, .tok .dotname]), (.sBlock, [.sh .block]),
   (.sNumber, [.tok .number]), (.sStr, [.tok .string]), (.sRaw, [.tok .rawstring]), (.sName, [.tok .dotname])]

/-- Expressions of at least a level. -/
def ops (l : Fin 14) : List (Pr × List (Kid Tm Sh)) :=
  ((binary.filter fun b => l ≤ b.2.2.2).map fun b => (.bin b.1, [.sh (.x b.2.1), .tok b.1.tm, .sh (.x b.2.2.1)])) ++
  ((unary.filter fun u => l ≤ u.2.2).map fun u => (u.1, [.tok u.2.1, .sh (.x u.2.2)])) ++ atoms

/-- The other expressions. -/
def stmts : List (Pr × List (Kid Tm Sh)) :=
  [(.if1, [.tok .if_, .tok .lparen, .sh .stmt, .tok .rparen, .sh (.x 13)]),
   (.if2, [.tok .if_, .tok .lparen, .sh .stmt, .tok .rparen, .sh (.x 13), .tok .else_, .sh .stmt]),
   (.while_, [.tok .while_, .tok .lparen, .sh .stmt, .tok .rparen, .sh (.x 13)]),
   (.doUntil, [.tok .do_, .sh (.x 13), .tok .until_, .tok .lparen, .sh .stmt, .tok .rparen]),
   (.for_, [.tok .for_, .tok .lparen, .sh .assigns, .tok .semi, .sh (.x 1), .tok .semi, .sh .assigns, .tok .rparen, .sh (.x 13)]),
   (.each1, [.tok .foreach, .tok .lparen, .sh .param, .tok .rparen, .sh (.x 13)]),
   (.each2, [.tok .foreach, .tok .lparen, .sh .param, .tok .comma, .sh .param, .tok .rparen, .sh (.x 13)]),
   (.pairName, [.tok .foreach, .tok .lparen, .tok .dotname, .tok .comma, .sh .param, .tok .rparen, .sh (.x 13)]),
   (.pairStr, [.tok .foreach, .tok .lparen, .tok .string, .tok .comma, .sh .param, .tok .rparen, .sh (.x 13)]),
   (.cast1, [.tok .cast, .tok .lparen, .sh (.x 1), .tok .rparen, .tok .lcurly, .sh .asblocks, .tok .rcurly]),
   (.cast2, [.tok .cast, .tok .lparen, .sh (.x 1), .tok .comma, .sh .param, .tok .rparen, .tok .lcurly, .sh .asblocks, .tok .rcurly]),
   (.ifnn1, [.tok .ifnotnull, .tok .lparen, .sh .params, .tok .rparen, .sh (.x 13)]),
   (.ifnn2, [.tok .ifnotnull, .tok .lparen, .sh .params, .tok .rparen, .sh (.x 13), .tok .else_, .sh (.x 13)]),
   (.unpack1, [.tok .unpack, .tok .lparen, .sh (.x 1), .tok .comma, .sh .params, .tok .rparen, .sh (.x 13)]),
   (.unpack2, [.tok .unpack, .tok .lparen, .sh (.x 1), .tok .comma, .sh .params, .tok .rparen, .sh (.x 13), .tok .else_, .sh (.x 13)]),
   (.try1, [.tok .try_, .sh .bexpr]),
   (.try2, [.tok .try_, .tok .lparen, .sh (.x 1), .tok .rparen, .sh (.x 13)]),
   (.try3, [.tok .try_, .tok .lparen, .sh .args2, .tok .rparen, .sh (.x 13)]),
   (.genSet, [.sh .base, .tok .lbracket, .sh .args, .tok .rbracket, .tok .equal, .sh (.x 1)]),
   (.genGet, [.sh .base, .tok .lbracket, .sh .args, .tok .rbracket]),
   (.let_, [.tok .var, .sh .assigns]),
   (.set_, [.sh .assigns]),
   (.to1, [.tok .dotname, .tok .lbracket, .sh .args, .tok .rbracket, .tok .equal, .sh (.x 1)]),
   (.to2, [.tok .dotname, .tok .lbracket, .sh .args, .tok .rbracket, .tok .to_, .sh .arg]),
   (.to3, [.tok .dotname, .tok .lbracket, .sh .args, .tok .rbracket, .tok .to_, .sh .arg, .tok .init, .sh (.x 1)]),
   (.to4, [.tok .dotname, .tok .to_, .sh .arg]),
   (.to5, [.tok .dotname, .tok .to_, .sh .arg, .tok .init, .sh (.x 1)])]

/-- The grammar. -/
def alts : Sh → List (Pr × List (Kid Tm Sh))
  | .x l => ops l
  | .stmt => ops 1 ++ stmts
  | .base => [(.call, [.tok .dotname, .tok .lparen, .sh .args, .tok .rparen]), (.group, [.tok .lparen, .sh .stmt, .tok .rparen])]
  | .bexpr => [(.sBlock, [.sh .block])]
  | .block => [(.blockE, [.tok .lcurly, .sh .exprs, .tok .rcurly]), (.blockP, [.tok .lcurly, .sh .params, .tok .rcurly])]
  | .exprs => [(.exprs1, [.sh .stmt]), (.exprsMore, [.sh .exprs, .tok .semi, .sh .stmt]), (.exprsSemi, [.sh .exprs, .tok .semi])]
  | .args => [(.args0, [.sh .empty]), (.args1, [.sh .arg]), (.argsMore, [.sh .args1, .tok .comma, .sh .arg])]
  | .args1 => [(.args1, [.sh .arg]), (.argsMore, [.sh .args1, .tok .comma, .sh .arg])]
  | .args2 => [(.args0, [.sh .empty]), (.argsMore, [.sh .args1, .tok .comma, .sh .arg])]
  | .params => [(.params0, [.sh .empty]), (.params1, [.sh .param]), (.paramsMore, [.sh .params1, .tok .comma, .sh .param])]
  | .params1 => [(.params1, [.sh .param]), (.paramsMore, [.sh .params1, .tok .comma, .sh .param])]
  | .empty => [(.empty, [])]
  | .arg => [(.argE, [.sh (.x 1)]), (.argP, [.sh .param]), (.argB, [.sh .bargs]), (.argF, [.sh .fcndef])]
  | .bargs => [(.bracketed, [.tok .lbracket, .sh .args, .tok .rbracket])]
  | .param => [(.paramName, [.tok .dotname, .tok .colon, .sh .arg]), (.paramStr, [.tok .string, .tok .colon, .sh .arg]),
      (.paramRaw, [.tok .rawstring, .tok .colon, .sh .arg])]
  | .fcndef => [(.fcnB, [.tok .fcn, .tok .lparen, .sh .params, .sh .rettype, .tok .rparen, .sh .block])]
  | .rettype => [(.rettype, [.tok .rarrow, .sh (.x 1)])]
  | .asblock => [(.asblock, [.tok .as_, .tok .lparen, .sh .param, .tok .rparen, .sh (.x 13)])]
  | .asblocks => [(.asblocks1, [.sh .asblock]), (.asblocksMore, [.sh .asblocks, .sh .asblock])]
  | .assign => [(.assignment, [.tok .dotname, .tok .equal, .sh (.x 1)])]
  | .assigns => [(.assigns1, [.sh .assign]), (.assignsMore, [.sh .assigns, .tok .comma, .sh .assign])]

/-- The states in which trees of a shape begin, with the tokens that may follow. -/
def ctx : Sh → List (Nat × Nat)
  | .x l => ([[], [(0, 134217728), (3, 134217728), (9, 134217728), (26, 134217728), (47, 2251799947903488), (55, 2251799947903104), (56, 6755399575275649), (57, 2251799947903488), (58, 5629499668433025), (64, 134217728), (65, 134217728), (69, 2251799947903104), (71, 2251799947902976), (73, 2251799947903104), (98, 2251799947903488), (110, 7881299482122881), (111, 7881299482122881), (112, 7881299482122881), (137, 2251799947903616), (146, 4503599761590401), (149, 134217728), (150, 4503599761588224), (164, 4503599761590401), (166, 4503599761590401), (167, 5629499668433025), (185, 134217856), (189, 134217728), (204, 4503599761590401)], [(0, 268435456), (3, 268435456), (9, 268435456), (26, 268435456), (27, 7881299750558337), (47, 268435456), (55, 268435456), (56, 268435456), (57, 268435456), (58, 268435456), (64, 268435456), (65, 268435456), (69, 268435456), (71, 268435456), (73, 268435456), (98, 268435456), (110, 268435456), (111, 268435456), (112, 268435456), (137, 268435456), (146, 268435456), (149, 268435456), (150, 268435456), (164, 268435456), (166, 268435456), (167, 268435456), (185, 268435456), (189, 268435456), (204, 268435456)], [(0, 67108864), (3, 67108864), (9, 67108864), (26, 67108864), (27, 67108864), (28, 7881299817667201), (47, 67108864), (55, 67108864), (56, 67108864), (57, 67108864), (58, 67108864), (64, 67108864), (65, 67108864), (69, 67108864), (71, 67108864), (73, 67108864), (98, 67108864), (110, 67108864), (111, 67108864), (112, 67108864), (137, 67108864), (146, 67108864), (149, 67108864), (150, 67108864), (164, 67108864), (166, 67108864), (167, 67108864), (185, 67108864), (189, 67108864), (204, 67108864)], [(8, 7881299817667201), (29, 7881299817667201)], [], [(0, 2213543936), (3, 2213543936), (8, 2213543936), (9, 2213543936), (26, 2213543936), (27, 2213543936), (28, 2213543936), (29, 2213543936), (30, 7881301965150849), (31, 7881301965150849), (32, 7881301965150849), (33, 7881301965150849), (34, 7881301965150849), (35, 7881301965150849), (47, 2213543936), (55, 2213543936), (56, 2213543936), (57, 2213543936), (58, 2213543936), (64, 2213543936), (65, 2213543936), (69, 2213543936), (71, 2213543936), (73, 2213543936), (98, 2213543936), (110, 2213543936), (111, 2213543936), (112, 2213543936), (137, 2213543936), (146, 2213543936), (149, 2213543936), (150, 2213543936), (164, 2213543936), (166, 2213543936), (167, 2213543936), (185, 2213543936), (189, 2213543936), (204, 2213543936)], [(0, 4294967296), (3, 4294967296), (8, 4294967296), (9, 4294967296), (26, 4294967296), (27, 4294967296), (28, 4294967296), (29, 4294967296), (30, 4294967296), (31, 4294967296), (32, 4294967296), (33, 4294967296), (34, 4294967296), (35, 4294967296), (36, 7881306326178433), (47, 4294967296), (55, 4294967296), (56, 4294967296), (57, 4294967296), (58, 4294967296), (64, 4294967296), (65, 4294967296), (69, 4294967296), (71, 4294967296), (73, 4294967296), (98, 4294967296), (110, 4294967296), (111, 4294967296), (112, 4294967296), (137, 4294967296), (146, 4294967296), (149, 4294967296), (150, 4294967296), (164, 4294967296), (166, 4294967296), (167, 4294967296), (185, 4294967296), (189, 4294967296), (204, 4294967296)], [(0, 1073741824), (3, 1073741824), (8, 1073741824), (9, 1073741824), (26, 1073741824), (27, 1073741824), (28, 1073741824), (29, 1073741824), (30, 1073741824), (31, 1073741824), (32, 1073741824), (33, 1073741824), (34, 1073741824), (35, 1073741824), (36, 1073741824), (37, 7881307399920257), (47, 1073741824), (55, 1073741824), (56, 1073741824), (57, 1073741824), (58, 1073741824), (64, 1073741824), (65, 1073741824), (69, 1073741824), (71, 1073741824), (73, 1073741824), (98, 1073741824), (110, 1073741824), (111, 1073741824), (112, 1073741824), (137, 1073741824), (146, 1073741824), (149, 1073741824), (150, 1073741824), (164, 1073741824), (166, 1073741824), (167, 1073741824), (185, 1073741824), (189, 1073741824), (204, 1073741824)], [(0, 24576), (3, 24576), (8, 24576), (9, 24576), (26, 24576), (27, 24576), (28, 24576), (29, 24576), (30, 24576), (31, 24576), (32, 24576), (33, 24576), (34, 24576), (35, 24576), (36, 24576), (37, 24576), (38, 7881307399944833), (47, 24576), (55, 24576), (56, 24576), (57, 24576), (58, 24576), (64, 24576), (65, 24576), (69, 24576), (71, 24576), (73, 24576), (98, 24576), (110, 24576), (111, 24576), (112, 24576), (137, 24576), (146, 24576), (149, 24576), (150, 24576), (164, 24576), (166, 24576), (167, 24576), (185, 24576), (189, 24576), (204, 24576)], [(0, 17180360704), (3, 17180360704), (8, 17180360704), (9, 17180360704), (26, 17180360704), (27, 17180360704), (28, 17180360704), (29, 17180360704), (30, 17180360704), (31, 17180360704), (32, 17180360704), (33, 17180360704), (34, 17180360704), (35, 17180360704), (36, 17180360704), (37, 17180360704), (38, 17180360704), (39, 7881324580305537), (40, 7881324580305537), (47, 17180360704), (55, 17180360704), (56, 17180360704), (57, 17180360704), (58, 17180360704), (64, 17180360704), (65, 17180360704), (69, 17180360704), (71, 17180360704), (73, 17180360704), (98, 17180360704), (110, 17180360704), (111, 17180360704), (112, 17180360704), (137, 17180360704), (146, 17180360704), (149, 17180360704), (150, 17180360704), (164, 17180360704), (166, 17180360704), (167, 17180360704), (185, 17180360704), (189, 17180360704), (204, 17180360704)], [(6, 7881324580305537), (7, 7881324580305537), (41, 7881324580305537), (42, 7881324580305537), (43, 7881324580305537), (44, 7881324580305537), (45, 7881324580305537)], [(0, 524288), (3, 524288), (6, 524288), (7, 524288), (8, 524288), (9, 524288), (26, 524288), (27, 524288), (28, 524288), (29, 524288), (30, 524288), (31, 524288), (32, 524288), (33, 524288), (34, 524288), (35, 524288), (36, 524288), (37, 524288), (38, 524288), (39, 524288), (40, 524288), (41, 524288), (42, 524288), (43, 524288), (44, 524288), (45, 524288), (47, 524288), (55, 524288), (56, 524288), (57, 524288), (58, 524288), (64, 524288), (65, 524288), (69, 524288), (71, 524288), (73, 524288), (98, 524288), (110, 524288), (111, 524288), (112, 524288), (137, 524288), (146, 524288), (149, 524288), (150, 524288), (164, 524288), (166, 524288), (167, 524288), (185, 524288), (189, 524288), (204, 524288)], [(12, 1099511627776), (46, 7881324580829825), (147, 4503737066326145), (148, 4503599627372673), (154, 4503599627372673), (158, 4503737066326145), (160, 4503599627372673), (161, 4503599627372673), (192, 4503599627372673), (193, 4503599627372673), (195, 4503599627372673), (200, 4503599627372673), (201, 4503737066326145), (220, 4503599627372673), (223, 4503599627372673), (225, 17592186046464)]] : List (List (Nat × Nat))).getD l []
  | .base => [(0, 256), (3, 256), (9, 256), (26, 256), (64, 256), (65, 256), (149, 256), (189, 256)]
  | .stmt => [(0, 4503599627370497), (3, 4503599627372544), (9, 128), (26, 4503599627372545), (64, 128), (65, 128), (149, 128), (189, 4503599627372673)]
  | .bexpr => [(18, 4503599627372673)]
  | .block => [(0, 4503624860295169), (3, 4503624860297216), (6, 7881324580829825), (7, 7881324580829825), (8, 7881324580829825), (9, 25232924800), (12, 1099511627776), (18, 4503599627372673), (26, 4503624860297217), (27, 7881324580829825), (28, 7881324580829825), (29, 7881324580829825), (30, 7881324514769537), (31, 7881324514769537), (32, 7881324514769537), (33, 7881324514769537), (34, 7881324514769537), (35, 7881324514769537), (36, 7881324580829825), (37, 7881324580829825), (38, 7881324580829825), (39, 7881324580829825), (40, 7881324580829825), (41, 7881324580829825), (42, 7881324580829825), (43, 7881324580829825), (44, 7881324580829825), (45, 7881324580829825), (46, 7881324580829825), (47, 2251825046610432), (55, 2251825046610048), (56, 6755424673982593), (57, 2251825046610432), (58, 5629524767139969), (64, 25232924800), (65, 25232924800), (69, 2251825046610048), (71, 2251825046609920), (73, 2251825046610048), (98, 2251825046610432), (110, 7881324580829825), (111, 7881324580829825), (112, 7881324580829825), (137, 2251825046610560), (146, 4503624860297345), (147, 4503737066326145), (148, 4503599627372673), (149, 25232924800), (150, 4503624860295168), (154, 4503599627372673), (158, 4503737066326145), (160, 4503599627372673), (161, 4503599627372673), (164, 4503624860297345), (166, 4503624860297345), (167, 5629524767139969), (185, 25232924800), (189, 4503624860297345), (192, 4503599627372673), (193, 4503599627372673), (195, 4503599627372673), (200, 4503599627372673), (201, 4503737066326145), (203, 7881299347905153), (204, 4503624860297345), (220, 4503599627372673), (223, 4503599627372673), (225, 17592186046464)]
  | .exprs => [(0, 4503599627370497), (3, 4503599627372544)]
  | .args => [(47, 512), (55, 128), (57, 512), (98, 512)]
  | .args1 => [(47, 2251799813685248), (55, 2251799813685248), (57, 2251799813685248), (73, 2251799813685248), (98, 2251799813685248)]
  | .args2 => [(73, 128)]
  | .params => [(3, 2048), (70, 128), (139, 4096), (159, 128)]
  | .params1 => [(3, 2251799813685248), (70, 2251799813685248), (139, 2251799813685248), (159, 2251799813685248)]
  | .empty => [(3, 2048), (47, 512), (55, 128), (57, 512), (70, 128), (73, 128), (98, 512), (139, 4096), (159, 128)]
  | .arg => [(47, 2251799813685760), (55, 2251799813685376), (57, 2251799813685760), (58, 5629499534215297), (73, 2251799813685248), (98, 2251799813685760), (110, 7881299347905153), (111, 7881299347905153), (112, 7881299347905153), (137, 2251799813685888), (167, 5629499534215297)]
  | .bargs => [(47, 2251799813685760), (55, 2251799813685376), (57, 2251799813685760), (58, 5629499534215297), (73, 2251799813685248), (98, 2251799813685760), (110, 7881299347905153), (111, 7881299347905153), (112, 7881299347905153), (137, 2251799813685888), (167, 5629499534215297)]
  | .param => [(3, 2251799813687296), (47, 2251799813685760), (55, 2251799813685376), (57, 2251799813685760), (58, 5629499534215297), (68, 2251799813685376), (70, 2251799813685376), (73, 2251799813685248), (98, 2251799813685760), (109, 2251799813691520), (110, 7881299347905153), (111, 7881299347905153), (112, 7881299347905153), (137, 2251799813685888), (139, 2251799813689344), (151, 128), (152, 128), (155, 128), (157, 128), (159, 2251799813685376), (167, 5629499534215297), (211, 128)]
  | .fcndef => [(47, 2251799813685760), (55, 2251799813685376), (57, 2251799813685760), (58, 5629499534215297), (73, 2251799813685248), (98, 2251799813685760), (110, 7881299347905153), (111, 7881299347905153), (112, 7881299347905153), (137, 2251799813685888), (167, 5629499534215297)]
  | .rettype => [(165, 128)]
  | .asblock => [(178, 17592186046464), (198, 17592186046464), (214, 17592186046464), (222, 17592186046464)]
  | .asblocks => [(178, 17592186046464), (214, 17592186046464)]
  | .assign => [(0, 6755399441055745), (3, 6755399441057792), (9, 2251799813685376), (21, 6755399441057921), (26, 6755399441057793), (64, 2251799813685376), (65, 2251799813685376), (67, 6755399441055744), (74, 6755399441057921), (149, 2251799813685376), (189, 6755399441057921), (191, 2251799813685376)]
  | .assigns => [(0, 6755399441055745), (3, 6755399441057792), (9, 2251799813685376), (21, 6755399441057921), (26, 6755399441057793), (64, 2251799813685376), (65, 2251799813685376), (67, 6755399441055744), (149, 2251799813685376), (189, 6755399441057921), (191, 2251799813685376)]

/-- The tokens with which trees of a shape begin. -/
def firstOf : Sh → Nat
  | .x l => ([9126823038, 9126823038, 9126823038, 9126823038, 9126823038, 8589952126, 8589952126, 8589952126, 8589952126, 8589952126, 8589952126, 8589952126, 1150, 1150] : List (Nat)).getD l 0
  | .base => 96
  | .stmt => 544061224141950
  | .bexpr => 1024
  | .block => 1024
  | .exprs => 544061224141950
  | .args => 43486561662
  | .args1 => 43486561662
  | .args2 => 43486561662
  | .params => 44
  | .params1 => 44
  | .empty => 0
  | .arg => 43486561662
  | .bargs => 256
  | .param => 44
  | .fcndef => 34359738368
  | .rettype => 4096
  | .asblock => 17592186044416
  | .asblocks => 17592186044416
  | .assign => 32
  | .assigns => 32

/-- The shapes that may be empty. -/
def nullOf : Sh → Bool
  | .args | .args2 | .params | .empty => true
  | _ => false
/-- The shapes with what the automaton knows of them. -/
def shapes : Shapes Tm Nt Pr Sh := ⟨Tm.bit, shSym, alts, ctx, firstOf, nullOf⟩

/-- The parser of expressions: ply with the tables of the grammar, start symbol `expressions`. -/
def exprParser : Machine Tm Nt Pr Tok := machine false exprAutomaton

set_option maxRecDepth 100000 in
theorem exprOk1 : (exprAutomaton.states.take 60).all (stateOk false exprFirst exprNull exprAutomaton) = true := by decide +kernel

set_option maxRecDepth 100000 in
theorem exprOk2 : ((exprAutomaton.states.drop 60).take 60).all (stateOk false exprFirst exprNull exprAutomaton) = true := by decide +kernel

set_option maxRecDepth 100000 in
theorem exprOk3 : ((exprAutomaton.states.drop 120).take 60).all (stateOk false exprFirst exprNull exprAutomaton) = true := by decide +kernel

set_option maxRecDepth 100000 in
theorem exprOk4 : (exprAutomaton.states.drop 180).all (stateOk false exprFirst exprNull exprAutomaton) = true := by decide +kernel

set_option maxRecDepth 100000 in
/-- The automaton is that of the grammar. -/
theorem exprOk : automatonOk false exprFirst exprNull exprAutomaton = true := by
  refine automatonOk_parts (by decide +kernel) (by decide +kernel) ?_
  refine all_parts 60 exprOk1 ?_
  refine all_parts 60 exprOk2 ?_
  rw [List.drop_drop]
  refine all_parts 60 exprOk3 ?_
  rw [List.drop_drop]
  exact exprOk4

set_option maxRecDepth 100000 in
theorem exprShapes1 : check shapes exprParser tms (shs.take 2) = true := by decide +kernel

set_option maxRecDepth 100000 in
theorem exprShapes2 : check shapes exprParser tms ((shs.drop 2).take 2) = true := by decide +kernel

set_option maxRecDepth 100000 in
theorem exprShapes3 : check shapes exprParser tms ((shs.drop 4).take 4) = true := by decide +kernel

set_option maxRecDepth 100000 in
theorem exprShapes4 : check shapes exprParser tms ((shs.drop 8).take 3) = true := by decide +kernel

set_option maxRecDepth 100000 in
theorem exprShapes5 : check shapes exprParser tms (shs.drop 11) = true := by decide +kernel

/-- The automaton reads the shapes. -/
theorem exprShapes : check shapes exprParser tms shs = true := by
  refine all_parts 2 exprShapes1 ?_
  refine all_parts 2 exprShapes2 ?_
  rw [List.drop_drop]
  refine all_parts 4 exprShapes3 ?_
  rw [List.drop_drop]
  refine all_parts 3 exprShapes4 ?_
  rw [List.drop_drop]
  exact exprShapes5

/-- Whatever the parser returns is a derivation in the grammar of prettypfa.py, of all tokens and from `expressions`. -/
theorem expressions_sound {inp : List Tok} {t : T} (h : Parses exprParser inp t) : WF exprParser t ∧ root exprParser t = .n .expressions ∧ t.yield = inp :=
  parser_sound exprOk h

set_option maxRecDepth 100000 in
/-- Every reduction of the automaton has a state to go to. -/
theorem exprLive : liveOk false exprAutomaton = true := by decide +kernel

/-- Every list of tokens is read or refused, and it is refused only at a token for which the tables have no action. -/
theorem expressions_end (inp : List Tok) : (∃ t, Parses exprParser inp t) ∨ ∃ left st, Fails exprParser inp left ∧ Steps exprParser ([], inp) (st, left) ∧
    exprParser.act (top st) (look exprParser left .eof) = none := by
  rcases parser_ends (past exprOk) (ends exprOk exprLive) inp with h | ⟨left, h⟩
  · exact .inl h
  · obtain ⟨st, h1, h2⟩ := h.table (past exprOk) (live exprOk exprLive)
    exact .inr ⟨left, st, h, h1, h2⟩

/-- Every tree with operands of the right levels is read as it is. -/
theorem expressions_read {t : T} (h : Has exprParser shapes .exprs t) : Parses exprParser t.yield t := by
  refine parses_complete exprShapes shs_all tms_all (la := 2 ^ Tm.semi.bit ||| 1) ?_ ?_ ?_ h
  · decide +kernel
  · decide +kernel
  · intro q hq
    have : exprParser.go 0 (shapes.sym .exprs) = some q := hq
    have h2 : (exprParser.go 0 (shapes.sym .exprs)).bind (fun q => exprParser.act q .eof) = some .accept := by decide +kernel
    rw [this] at h2
    exact h2

end Verif.Pretty
