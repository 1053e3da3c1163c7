import Verif.Pretty.Lalr

/-!
# The automaton of expressions

Written down by a program that does what ply.yacc 3.11 does (`lr0_items`, `add_lalr_lookaheads`, `lr_parse_table`) with the productions of prettypfa.py 1456-2094.
Nothing rests on that program: `exprOk` checks the automaton against the grammar.  Masks are sets of tokens, numbers of tokens and symbols are places in `Tm` and `Nt`.
-/

namespace Verif.Pretty
open Lr

private def exprClos0 : List (Nat × Nat) := [(4, 4503599627370497), (5, 4503624860295425), (11, 4503624860295425), (20, 6755424673980673), (21, 6755424673980673)]
private def exprShifts0 : List (Nat × Nat) := [(1, 23), (2, 24), (3, 25), (4, 4), (5, 5), (6, 9), (10, 3), (14, 6), (29, 8), (33, 7), (36, 10), (38, 11), (39, 12), (41, 13), (42, 14), (43, 15), (45, 16), (46, 17), (47, 18), (48, 21)]
private def exprGotos0 : List (Nat × Nat) := [(4, 1), (5, 22), (11, 2), (20, 19), (21, 20)]
private def exprState0 : LState := ⟨[(.start, 0, 1)], exprClos0, exprShifts0, exprGotos0, 544061224141950, []⟩
private def exprState1 : LState := ⟨[(.start, 1, 1), (.exprsMore, 1, 4503599627370497), (.exprsSemi, 1, 4503599627370497)], [], [(52, 26)], [], 4503599627370496, [(1, .start)]⟩
private def exprKernel0 : List (Pr × Nat × Nat) := [(.exprs1, 1, 4503599627372545), ((.bin .or), 1, 4503624860297473), ((.bin .xor), 1, 4503624860297473), ((.bin .and), 1, 4503624860297473), ((.bin .eq), 1, 4503624860297473), ((.bin .ne), 1, 4503624860297473), ((.bin .lt), 1, 4503624860297473), ((.bin .le), 1, 4503624860297473), ((.bin .gt), 1, 4503624860297473), ((.bin .ge), 1, 4503624860297473), ((.bin .bitor), 1, 4503624860297473), ((.bin .bitxor), 1, 4503624860297473), ((.bin .bitand), 1, 4503624860297473), ((.bin .plus), 1, 4503624860297473), ((.bin .minus), 1, 4503624860297473), ((.bin .times), 1, 4503624860297473), ((.bin .fdiv), 1, 4503624860297473), ((.bin .idiv), 1, 4503624860297473), ((.bin .mod), 1, 4503624860297473), ((.bin .rem), 1, 4503624860297473), ((.bin .pow), 1, 4503624860297473), (.genSet, 1, 4503624860297473), (.genGet, 1, 4503624860297473)]
private def exprShifts1 : List (Nat × Nat) := [(8, 47), (13, 39), (14, 40), (15, 41), (16, 42), (17, 44), (18, 45), (19, 46), (20, 30), (21, 31), (22, 32), (23, 33), (24, 34), (25, 35), (26, 29), (27, 27), (28, 28), (30, 38), (31, 36), (32, 37), (34, 43)]
private def exprState2 : LState := ⟨exprKernel0, [], exprShifts1, [], 25232924928, [(4503599627372545, .exprs1)]⟩
private def exprClos1 : List (Nat × Nat) := [(4, 4503599627372544), (5, 4503624860297472), (9, 2251799813687296), (10, 2251799813687296), (11, 4503624860297472), (20, 6755424673982720), (21, 6755424673982720), (22, 2251799813687296)]
private def exprShifts2 : List (Nat × Nat) := [(1, 23), (2, 53), (3, 54), (4, 4), (5, 52), (6, 9), (10, 3), (14, 6), (29, 8), (33, 7), (36, 10), (38, 11), (39, 12), (41, 13), (42, 14), (43, 15), (45, 16), (46, 17), (47, 18), (48, 21)]
private def exprGotos1 : List (Nat × Nat) := [(4, 48), (5, 22), (9, 49), (10, 51), (11, 2), (20, 19), (21, 20), (22, 50)]
private def exprState3 : LState := ⟨[(.blockE, 1, 7900153717455745), (.blockP, 1, 7900153717455745)], exprClos1, exprShifts2, exprGotos1, 544061224141950, [(2251799813687296, .empty)]⟩
private def exprState4 : LState := ⟨[(.repl, 1, 7900153717455745)], [], [], [], 0, [(7900153717455745, .repl)]⟩
private def exprKernel1 : List (Pr × Nat × Nat) := [(.call, 1, 7900153717455745), (.assignment, 1, 7900153717455745), (.get, 1, 7900153717455745), (.to1, 1, 7900153717455745), (.to2, 1, 7900153717455745), (.to3, 1, 7900153717455745), (.to4, 1, 7900153717455745), (.to5, 1, 7900153717455745), (.enumSym, 1, 7900153717455745), (.sName, 1, 7900153717455745)]
private def exprShifts3 : List (Nat × Nat) := [(6, 55), (8, 57), (49, 58), (54, 56), (55, 59)]
private def exprState5 : LState := ⟨exprKernel1, [], exprShifts3, [], 54606145481867584, [(7900153717455489, .sName)]⟩
private def exprClos2 : List (Nat × Nat) := [(5, 7900153717455745), (11, 7900153717455745), (20, 7900153717455745), (21, 7900153717455745)]
private def exprGotos2 : List (Nat × Nat) := [(5, 22), (11, 60), (20, 19), (21, 20)]
private def exprState6 : LState := ⟨[(.uminus, 1, 7900153717455745)], exprClos2, exprShifts0, exprGotos2, 544061224141950, []⟩
private def exprGotos3 : List (Nat × Nat) := [(5, 22), (11, 61), (20, 19), (21, 20)]
private def exprState7 : LState := ⟨[(.bitnot, 1, 7900153717455745)], exprClos2, exprShifts0, exprGotos3, 544061224141950, []⟩
private def exprGotos4 : List (Nat × Nat) := [(5, 22), (11, 62), (20, 19), (21, 20)]
private def exprState8 : LState := ⟨[(.not, 1, 7900153717455745)], exprClos2, exprShifts0, exprGotos4, 544061224141950, []⟩
private def exprClos3 : List (Nat × Nat) := [(5, 25232925056), (11, 25232925056), (20, 2251825046610304), (21, 2251825046610304)]
private def exprGotos5 : List (Nat × Nat) := [(5, 22), (11, 63), (20, 19), (21, 20)]
private def exprState9 : LState := ⟨[(.group, 1, 7900153717455745)], exprClos3, exprShifts0, exprGotos5, 544061224141950, []⟩
private def exprState10 : LState := ⟨[(.if1, 1, 7900153717455745), (.if2, 1, 7900153717455745)], [], [(6, 64)], [], 64, []⟩
private def exprState11 : LState := ⟨[(.while_, 1, 7900153717455745)], [], [(6, 65)], [], 64, []⟩
private def exprClos4 : List (Nat × Nat) := [(5, 1124744552704), (11, 1124744552704), (20, 2252924558237952), (21, 2252924558237952)]
private def exprGotos6 : List (Nat × Nat) := [(5, 22), (11, 66), (20, 19), (21, 20)]
private def exprState12 : LState := ⟨[(.doUntil, 1, 7900153717455745)], exprClos4, exprShifts0, exprGotos6, 544061224141950, []⟩
private def exprState13 : LState := ⟨[(.for_, 1, 7900153717455745)], [], [(6, 67)], [], 64, []⟩
private def exprKernel2 : List (Pr × Nat × Nat) := [(.each1, 1, 7900153717455745), (.each2, 1, 7900153717455745), (.pairStr, 1, 7900153717455745), (.pairRaw, 1, 7900153717455745), (.pairName, 1, 7900153717455745)]
private def exprState14 : LState := ⟨exprKernel2, [], [(6, 68)], [], 64, []⟩
private def exprState15 : LState := ⟨[(.cast1, 1, 7900153717455745), (.cast2, 1, 7900153717455745)], [], [(6, 69)], [], 64, []⟩
private def exprState16 : LState := ⟨[(.ifnn1, 1, 7900153717455745), (.ifnn2, 1, 7900153717455745)], [], [(6, 70)], [], 64, []⟩
private def exprState17 : LState := ⟨[(.unpack1, 1, 7900153717455745), (.unpack2, 1, 7900153717455745)], [], [(6, 71)], [], 64, []⟩
private def exprShifts4 : List (Nat × Nat) := [(1, 23), (2, 24), (3, 25), (4, 4), (5, 5), (6, 73), (10, 3), (14, 6), (29, 8), (33, 7), (36, 10), (38, 11), (39, 12), (41, 13), (42, 14), (43, 15), (45, 16), (46, 17), (47, 18), (48, 21)]
private def exprGotos7 : List (Nat × Nat) := [(5, 22), (11, 72), (20, 19), (21, 20)]
private def exprState18 : LState := ⟨[(.try1, 1, 7900153717455745), (.try2, 1, 7900153717455745), (.try3, 1, 7900153717455745)], exprClos2, exprShifts4, exprGotos7, 544061224141950, []⟩
private def exprState19 : LState := ⟨[(.assigns1, 1, 7900153717455745)], [], [], [], 0, [(7900153717455745, .assigns1)]⟩
private def exprState20 : LState := ⟨[(.assignsMore, 1, 7900153717455745), (.set_, 1, 7900153717455745)], [], [(51, 74)], [], 2251799813685248, [(5648353903770497, .set_)]⟩
private def exprState21 : LState := ⟨[(.let_, 1, 7900153717455745)], [(20, 7900153717455745), (21, 7900153717455745)], [(5, 75)], [(20, 19), (21, 76)], 32, []⟩
private def exprState22 : LState := ⟨[(.sBlock, 1, 7900153717455745)], [], [], [], 0, [(7900153717455745, .sBlock)]⟩
private def exprState23 : LState := ⟨[(.sNumber, 1, 7900153717455745)], [], [], [], 0, [(7900153717455745, .sNumber)]⟩
private def exprState24 : LState := ⟨[(.sStr, 1, 7900153717455745)], [], [], [], 0, [(7900153717455745, .sStr)]⟩
private def exprState25 : LState := ⟨[(.sRaw, 1, 7900153717455745)], [], [], [], 0, [(7900153717455745, .sRaw)]⟩
private def exprClos5 : List (Nat × Nat) := [(5, 4503624860297473), (11, 4503624860297473), (20, 6755424673982721), (21, 6755424673982721)]
private def exprGotos8 : List (Nat × Nat) := [(5, 22), (11, 77), (20, 19), (21, 20)]
private def exprState26 : LState := ⟨[(.exprsMore, 2, 4503599627372545), (.exprsSemi, 2, 4503599627372545)], exprClos5, exprShifts0, exprGotos8, 544061224141950, [(4503599627372545, .exprsSemi)]⟩
private def exprGotos9 : List (Nat × Nat) := [(5, 22), (11, 78), (20, 19), (21, 20)]
private def exprState27 : LState := ⟨[((.bin .or), 2, 7900153717455745)], exprClos2, exprShifts0, exprGotos9, 544061224141950, []⟩
private def exprGotos10 : List (Nat × Nat) := [(5, 22), (11, 79), (20, 19), (21, 20)]
private def exprState28 : LState := ⟨[((.bin .xor), 2, 7900153717455745)], exprClos2, exprShifts0, exprGotos10, 544061224141950, []⟩
private def exprGotos11 : List (Nat × Nat) := [(5, 22), (11, 80), (20, 19), (21, 20)]
private def exprState29 : LState := ⟨[((.bin .and), 2, 7900153717455745)], exprClos2, exprShifts0, exprGotos11, 544061224141950, []⟩
private def exprGotos12 : List (Nat × Nat) := [(5, 22), (11, 81), (20, 19), (21, 20)]
private def exprState30 : LState := ⟨[((.bin .eq), 2, 7900153717455745)], exprClos2, exprShifts0, exprGotos12, 544061224141950, []⟩
private def exprGotos13 : List (Nat × Nat) := [(5, 22), (11, 82), (20, 19), (21, 20)]
private def exprState31 : LState := ⟨[((.bin .ne), 2, 7900153717455745)], exprClos2, exprShifts0, exprGotos13, 544061224141950, []⟩
private def exprGotos14 : List (Nat × Nat) := [(5, 22), (11, 83), (20, 19), (21, 20)]
private def exprState32 : LState := ⟨[((.bin .lt), 2, 7900153717455745)], exprClos2, exprShifts0, exprGotos14, 544061224141950, []⟩
private def exprGotos15 : List (Nat × Nat) := [(5, 22), (11, 84), (20, 19), (21, 20)]
private def exprState33 : LState := ⟨[((.bin .le), 2, 7900153717455745)], exprClos2, exprShifts0, exprGotos15, 544061224141950, []⟩
private def exprGotos16 : List (Nat × Nat) := [(5, 22), (11, 85), (20, 19), (21, 20)]
private def exprState34 : LState := ⟨[((.bin .gt), 2, 7900153717455745)], exprClos2, exprShifts0, exprGotos16, 544061224141950, []⟩
private def exprGotos17 : List (Nat × Nat) := [(5, 22), (11, 86), (20, 19), (21, 20)]
private def exprState35 : LState := ⟨[((.bin .ge), 2, 7900153717455745)], exprClos2, exprShifts0, exprGotos17, 544061224141950, []⟩
private def exprGotos18 : List (Nat × Nat) := [(5, 22), (11, 87), (20, 19), (21, 20)]
private def exprState36 : LState := ⟨[((.bin .bitor), 2, 7900153717455745)], exprClos2, exprShifts0, exprGotos18, 544061224141950, []⟩
private def exprGotos19 : List (Nat × Nat) := [(5, 22), (11, 88), (20, 19), (21, 20)]
private def exprState37 : LState := ⟨[((.bin .bitxor), 2, 7900153717455745)], exprClos2, exprShifts0, exprGotos19, 544061224141950, []⟩
private def exprGotos20 : List (Nat × Nat) := [(5, 22), (11, 89), (20, 19), (21, 20)]
private def exprState38 : LState := ⟨[((.bin .bitand), 2, 7900153717455745)], exprClos2, exprShifts0, exprGotos20, 544061224141950, []⟩
private def exprGotos21 : List (Nat × Nat) := [(5, 22), (11, 90), (20, 19), (21, 20)]
private def exprState39 : LState := ⟨[((.bin .plus), 2, 7900153717455745)], exprClos2, exprShifts0, exprGotos21, 544061224141950, []⟩
private def exprGotos22 : List (Nat × Nat) := [(5, 22), (11, 91), (20, 19), (21, 20)]
private def exprState40 : LState := ⟨[((.bin .minus), 2, 7900153717455745)], exprClos2, exprShifts0, exprGotos22, 544061224141950, []⟩
private def exprGotos23 : List (Nat × Nat) := [(5, 22), (11, 92), (20, 19), (21, 20)]
private def exprState41 : LState := ⟨[((.bin .times), 2, 7900153717455745)], exprClos2, exprShifts0, exprGotos23, 544061224141950, []⟩
private def exprGotos24 : List (Nat × Nat) := [(5, 22), (11, 93), (20, 19), (21, 20)]
private def exprState42 : LState := ⟨[((.bin .fdiv), 2, 7900153717455745)], exprClos2, exprShifts0, exprGotos24, 544061224141950, []⟩
private def exprGotos25 : List (Nat × Nat) := [(5, 22), (11, 94), (20, 19), (21, 20)]
private def exprState43 : LState := ⟨[((.bin .idiv), 2, 7900153717455745)], exprClos2, exprShifts0, exprGotos25, 544061224141950, []⟩
private def exprGotos26 : List (Nat × Nat) := [(5, 22), (11, 95), (20, 19), (21, 20)]
private def exprState44 : LState := ⟨[((.bin .mod), 2, 7900153717455745)], exprClos2, exprShifts0, exprGotos26, 544061224141950, []⟩
private def exprGotos27 : List (Nat × Nat) := [(5, 22), (11, 96), (20, 19), (21, 20)]
private def exprState45 : LState := ⟨[((.bin .rem), 2, 7900153717455745)], exprClos2, exprShifts0, exprGotos27, 544061224141950, []⟩
private def exprGotos28 : List (Nat × Nat) := [(5, 22), (11, 97), (20, 19), (21, 20)]
private def exprState46 : LState := ⟨[((.bin .pow), 2, 7900153717455745)], exprClos2, exprShifts0, exprGotos28, 544061224141950, []⟩
private def exprClos6 : List (Nat × Nat) := [(5, 2251825046610688), (6, 2251799813685760), (7, 2251799813685760), (8, 2251799813685760), (10, 2251799813685760), (11, 2251825046610688), (13, 2251799813685760), (20, 2251825046610688), (21, 2251825046610688), (22, 2251799813685760)]
private def exprShifts5 : List (Nat × Nat) := [(1, 23), (2, 53), (3, 54), (4, 4), (5, 52), (6, 9), (8, 98), (10, 3), (14, 6), (29, 8), (33, 7), (35, 106), (36, 10), (38, 11), (39, 12), (41, 13), (42, 14), (43, 15), (45, 16), (46, 17), (47, 18), (48, 21)]
private def exprGotos29 : List (Nat × Nat) := [(5, 22), (6, 101), (7, 104), (8, 105), (10, 100), (11, 99), (13, 102), (20, 19), (21, 20), (22, 103)]
private def exprState47 : LState := ⟨[(.genSet, 2, 7900153717455745), (.genGet, 2, 7900153717455745)], exprClos6, exprShifts5, exprGotos29, 544095583880574, [(2251799813685760, .empty)]⟩
private def exprState48 : LState := ⟨[(.exprsMore, 1, 4503599627372544), (.exprsSemi, 1, 4503599627372544), (.blockE, 2, 7900153717455745)], [], [(11, 107), (52, 26)], [], 4503599627372544, []⟩
private def exprState49 : LState := ⟨[(.blockP, 2, 7900153717455745), (.paramsMore, 1, 2251799813687296)], [], [(11, 108), (51, 109)], [], 2251799813687296, []⟩
private def exprState50 : LState := ⟨[(.params0, 1, 2251799813691520)], [], [], [], 0, [(2251799813691520, .params0)]⟩
private def exprState51 : LState := ⟨[(.params1, 1, 2251799813691520)], [], [], [], 0, [(2251799813691520, .params1)]⟩
private def exprKernel3 : List (Pr × Nat × Nat) := [(.paramName, 1, 7900153717455745), (.call, 1, 7900153717455745), (.assignment, 1, 7900153717455745), (.get, 1, 7900153717455745), (.to1, 1, 7900153717455745), (.to2, 1, 7900153717455745), (.to3, 1, 7900153717455745), (.to4, 1, 7900153717455745), (.to5, 1, 7900153717455745), (.enumSym, 1, 7900153717455745), (.sName, 1, 7900153717455745)]
private def exprShifts6 : List (Nat × Nat) := [(6, 55), (8, 57), (49, 58), (53, 110), (54, 56), (55, 59)]
private def exprState52 : LState := ⟨exprKernel3, [], exprShifts6, [], 63613344736608576, [(7900153717455489, .sName)]⟩
private def exprState53 : LState := ⟨[(.paramStr, 1, 7900153717455745), (.sStr, 1, 7900153717455745)], [], [(53, 111)], [], 9007199254740992, [(7900153717455745, .sStr)]⟩
private def exprState54 : LState := ⟨[(.paramRaw, 1, 7900153717455745), (.sRaw, 1, 7900153717455745)], [], [(53, 112)], [], 9007199254740992, [(7900153717455745, .sRaw)]⟩
private def exprClos7 : List (Nat × Nat) := [(5, 2251825046610304), (6, 2251799813685376), (7, 2251799813685376), (8, 2251799813685376), (10, 2251799813685376), (11, 2251825046610304), (13, 2251799813685376), (20, 2251825046610304), (21, 2251825046610304), (22, 2251799813685376)]
private def exprGotos30 : List (Nat × Nat) := [(5, 22), (6, 101), (7, 104), (8, 113), (10, 100), (11, 99), (13, 102), (20, 19), (21, 20), (22, 103)]
private def exprState55 : LState := ⟨[(.call, 2, 7900153717455745)], exprClos7, exprShifts5, exprGotos30, 544095583880574, [(2251799813685376, .empty)]⟩
private def exprGotos31 : List (Nat × Nat) := [(5, 22), (11, 114), (20, 19), (21, 20)]
private def exprState56 : LState := ⟨[(.assignment, 2, 7900153717455745)], exprClos2, exprShifts0, exprGotos31, 544061224141950, []⟩
private def exprKernel4 : List (Pr × Nat × Nat) := [(.get, 2, 7900153717455745), (.to1, 2, 7900153717455745), (.to2, 2, 7900153717455745), (.to3, 2, 7900153717455745)]
private def exprGotos32 : List (Nat × Nat) := [(5, 22), (6, 101), (7, 104), (8, 115), (10, 100), (11, 99), (13, 102), (20, 19), (21, 20), (22, 103)]
private def exprState57 : LState := ⟨exprKernel4, exprClos6, exprShifts5, exprGotos32, 544095583880574, [(2251799813685760, .empty)]⟩
private def exprClos8 : List (Nat × Nat) := [(5, 7900153717455745), (6, 7900153717455745), (7, 7900153717455745), (10, 7900153717455745), (11, 7900153717455745), (13, 7900153717455745), (20, 7900153717455745), (21, 7900153717455745)]
private def exprGotos33 : List (Nat × Nat) := [(5, 22), (6, 101), (7, 116), (10, 100), (11, 99), (13, 102), (20, 19), (21, 20)]
private def exprState58 : LState := ⟨[(.to4, 2, 7900153717455745), (.to5, 2, 7900153717455745)], exprClos8, exprShifts5, exprGotos33, 544095583880574, []⟩
private def exprState59 : LState := ⟨[(.enumSym, 2, 7900153717455745)], [], [(5, 117)], [], 32, []⟩
private def exprKernel5 : List (Pr × Nat × Nat) := [(.uminus, 2, 7900153717455745), ((.bin .or), 1, 7900153717455745), ((.bin .xor), 1, 7900153717455745), ((.bin .and), 1, 7900153717455745), ((.bin .eq), 1, 7900153717455745), ((.bin .ne), 1, 7900153717455745), ((.bin .lt), 1, 7900153717455745), ((.bin .le), 1, 7900153717455745), ((.bin .gt), 1, 7900153717455745), ((.bin .ge), 1, 7900153717455745), ((.bin .bitor), 1, 7900153717455745), ((.bin .bitxor), 1, 7900153717455745), ((.bin .bitand), 1, 7900153717455745), ((.bin .plus), 1, 7900153717455745), ((.bin .minus), 1, 7900153717455745), ((.bin .times), 1, 7900153717455745), ((.bin .fdiv), 1, 7900153717455745), ((.bin .idiv), 1, 7900153717455745), ((.bin .mod), 1, 7900153717455745), ((.bin .rem), 1, 7900153717455745), ((.bin .pow), 1, 7900153717455745), (.genSet, 1, 7900153717455745), (.genGet, 1, 7900153717455745)]
private def exprState60 : LState := ⟨exprKernel5, [], exprShifts1, [], 524288, [(7900153716931457, .uminus)]⟩
private def exprKernel6 : List (Pr × Nat × Nat) := [(.bitnot, 2, 7900153717455745), ((.bin .or), 1, 7900153717455745), ((.bin .xor), 1, 7900153717455745), ((.bin .and), 1, 7900153717455745), ((.bin .eq), 1, 7900153717455745), ((.bin .ne), 1, 7900153717455745), ((.bin .lt), 1, 7900153717455745), ((.bin .le), 1, 7900153717455745), ((.bin .gt), 1, 7900153717455745), ((.bin .ge), 1, 7900153717455745), ((.bin .bitor), 1, 7900153717455745), ((.bin .bitxor), 1, 7900153717455745), ((.bin .bitand), 1, 7900153717455745), ((.bin .plus), 1, 7900153717455745), ((.bin .minus), 1, 7900153717455745), ((.bin .times), 1, 7900153717455745), ((.bin .fdiv), 1, 7900153717455745), ((.bin .idiv), 1, 7900153717455745), ((.bin .mod), 1, 7900153717455745), ((.bin .rem), 1, 7900153717455745), ((.bin .pow), 1, 7900153717455745), (.genSet, 1, 7900153717455745), (.genGet, 1, 7900153717455745)]
private def exprState61 : LState := ⟨exprKernel6, [], exprShifts1, [], 524288, [(7900153716931457, .bitnot)]⟩
private def exprKernel7 : List (Pr × Nat × Nat) := [(.not, 2, 7900153717455745), ((.bin .or), 1, 7900153717455745), ((.bin .xor), 1, 7900153717455745), ((.bin .and), 1, 7900153717455745), ((.bin .eq), 1, 7900153717455745), ((.bin .ne), 1, 7900153717455745), ((.bin .lt), 1, 7900153717455745), ((.bin .le), 1, 7900153717455745), ((.bin .gt), 1, 7900153717455745), ((.bin .ge), 1, 7900153717455745), ((.bin .bitor), 1, 7900153717455745), ((.bin .bitxor), 1, 7900153717455745), ((.bin .bitand), 1, 7900153717455745), ((.bin .plus), 1, 7900153717455745), ((.bin .minus), 1, 7900153717455745), ((.bin .times), 1, 7900153717455745), ((.bin .fdiv), 1, 7900153717455745), ((.bin .idiv), 1, 7900153717455745), ((.bin .mod), 1, 7900153717455745), ((.bin .rem), 1, 7900153717455745), ((.bin .pow), 1, 7900153717455745), (.genSet, 1, 7900153717455745), (.genGet, 1, 7900153717455745)]
private def exprState62 : LState := ⟨exprKernel7, [], exprShifts1, [], 24763162624, [(7900128954293121, .not)]⟩
private def exprKernel8 : List (Pr × Nat × Nat) := [((.bin .or), 1, 25232925056), ((.bin .xor), 1, 25232925056), ((.bin .and), 1, 25232925056), ((.bin .eq), 1, 25232925056), ((.bin .ne), 1, 25232925056), ((.bin .lt), 1, 25232925056), ((.bin .le), 1, 25232925056), ((.bin .gt), 1, 25232925056), ((.bin .ge), 1, 25232925056), ((.bin .bitor), 1, 25232925056), ((.bin .bitxor), 1, 25232925056), ((.bin .bitand), 1, 25232925056), ((.bin .plus), 1, 25232925056), ((.bin .minus), 1, 25232925056), ((.bin .times), 1, 25232925056), ((.bin .fdiv), 1, 25232925056), ((.bin .idiv), 1, 25232925056), ((.bin .mod), 1, 25232925056), ((.bin .rem), 1, 25232925056), ((.bin .pow), 1, 25232925056), (.group, 2, 7900153717455745), (.genSet, 1, 25232925056), (.genGet, 1, 25232925056)]
private def exprShifts7 : List (Nat × Nat) := [(7, 118), (8, 47), (13, 39), (14, 40), (15, 41), (16, 42), (17, 44), (18, 45), (19, 46), (20, 30), (21, 31), (22, 32), (23, 33), (24, 34), (25, 35), (26, 29), (27, 27), (28, 28), (30, 38), (31, 36), (32, 37), (34, 43)]
private def exprState63 : LState := ⟨exprKernel8, [], exprShifts7, [], 25232925056, []⟩
private def exprGotos34 : List (Nat × Nat) := [(5, 22), (11, 119), (20, 19), (21, 20)]
private def exprState64 : LState := ⟨[(.if1, 2, 7900153717455745), (.if2, 2, 7900153717455745)], exprClos3, exprShifts0, exprGotos34, 544061224141950, []⟩
private def exprGotos35 : List (Nat × Nat) := [(5, 22), (11, 120), (20, 19), (21, 20)]
private def exprState65 : LState := ⟨[(.while_, 2, 7900153717455745)], exprClos3, exprShifts0, exprGotos35, 544061224141950, []⟩
private def exprKernel9 : List (Pr × Nat × Nat) := [((.bin .or), 1, 1124744552704), ((.bin .xor), 1, 1124744552704), ((.bin .and), 1, 1124744552704), ((.bin .eq), 1, 1124744552704), ((.bin .ne), 1, 1124744552704), ((.bin .lt), 1, 1124744552704), ((.bin .le), 1, 1124744552704), ((.bin .gt), 1, 1124744552704), ((.bin .ge), 1, 1124744552704), ((.bin .bitor), 1, 1124744552704), ((.bin .bitxor), 1, 1124744552704), ((.bin .bitand), 1, 1124744552704), ((.bin .plus), 1, 1124744552704), ((.bin .minus), 1, 1124744552704), ((.bin .times), 1, 1124744552704), ((.bin .fdiv), 1, 1124744552704), ((.bin .idiv), 1, 1124744552704), ((.bin .mod), 1, 1124744552704), ((.bin .rem), 1, 1124744552704), ((.bin .pow), 1, 1124744552704), (.doUntil, 2, 7900153717455745), (.genSet, 1, 1124744552704), (.genGet, 1, 1124744552704)]
private def exprShifts8 : List (Nat × Nat) := [(8, 47), (13, 39), (14, 40), (15, 41), (16, 42), (17, 44), (18, 45), (19, 46), (20, 30), (21, 31), (22, 32), (23, 33), (24, 34), (25, 35), (26, 29), (27, 27), (28, 28), (30, 38), (31, 36), (32, 37), (34, 43), (40, 121)]
private def exprState66 : LState := ⟨exprKernel9, [], exprShifts8, [], 1124744552704, []⟩
private def exprState67 : LState := ⟨[(.for_, 2, 7900153717455745)], [(20, 6755399441055744), (21, 6755399441055744)], [(5, 75)], [(20, 19), (21, 122)], 32, []⟩
private def exprKernel10 : List (Pr × Nat × Nat) := [(.each1, 2, 7900153717455745), (.each2, 2, 7900153717455745), (.pairStr, 2, 7900153717455745), (.pairRaw, 2, 7900153717455745), (.pairName, 2, 7900153717455745)]
private def exprState68 : LState := ⟨exprKernel10, [(10, 2251799813685376)], [(2, 124), (3, 125), (5, 123)], [(10, 126)], 44, []⟩
private def exprClos9 : List (Nat × Nat) := [(5, 2251825046610304), (11, 2251825046610304), (20, 2251825046610304), (21, 2251825046610304)]
private def exprGotos36 : List (Nat × Nat) := [(5, 22), (11, 127), (20, 19), (21, 20)]
private def exprState69 : LState := ⟨[(.cast1, 2, 7900153717455745), (.cast2, 2, 7900153717455745)], exprClos9, exprShifts0, exprGotos36, 544061224141950, []⟩
private def exprState70 : LState := ⟨[(.ifnn1, 2, 7900153717455745), (.ifnn2, 2, 7900153717455745)], [(9, 2251799813685376), (10, 2251799813685376), (22, 2251799813685376)], [(2, 130), (3, 131), (5, 129)], [(9, 128), (10, 51), (22, 50)], 44, [(2251799813685376, .empty)]⟩
private def exprClos10 : List (Nat × Nat) := [(5, 2251825046610176), (11, 2251825046610176), (20, 2251825046610176), (21, 2251825046610176)]
private def exprGotos37 : List (Nat × Nat) := [(5, 22), (11, 132), (20, 19), (21, 20)]
private def exprState71 : LState := ⟨[(.unpack1, 2, 7900153717455745), (.unpack2, 2, 7900153717455745)], exprClos10, exprShifts0, exprGotos37, 544061224141950, []⟩
private def exprKernel11 : List (Pr × Nat × Nat) := [((.bin .or), 1, 7900153717455745), ((.bin .xor), 1, 7900153717455745), ((.bin .and), 1, 7900153717455745), ((.bin .eq), 1, 7900153717455745), ((.bin .ne), 1, 7900153717455745), ((.bin .lt), 1, 7900153717455745), ((.bin .le), 1, 7900153717455745), ((.bin .gt), 1, 7900153717455745), ((.bin .ge), 1, 7900153717455745), ((.bin .bitor), 1, 7900153717455745), ((.bin .bitxor), 1, 7900153717455745), ((.bin .bitand), 1, 7900153717455745), ((.bin .plus), 1, 7900153717455745), ((.bin .minus), 1, 7900153717455745), ((.bin .times), 1, 7900153717455745), ((.bin .fdiv), 1, 7900153717455745), ((.bin .idiv), 1, 7900153717455745), ((.bin .mod), 1, 7900153717455745), ((.bin .rem), 1, 7900153717455745), ((.bin .pow), 1, 7900153717455745), (.try1, 2, 7900153717455745), (.genSet, 1, 7900153717455745), (.genGet, 1, 7900153717455745)]
private def exprState72 : LState := ⟨exprKernel11, [], exprShifts1, [], 25232924928, [(7900128484530817, .try1)]⟩
private def exprGotos38 : List (Nat × Nat) := [(5, 22), (6, 101), (7, 104), (8, 134), (10, 100), (11, 133), (13, 102), (20, 19), (21, 20), (22, 103)]
private def exprState73 : LState := ⟨[(.group, 1, 7900153717455745), (.try2, 2, 7900153717455745), (.try3, 2, 7900153717455745)], exprClos7, exprShifts5, exprGotos38, 544095583880574, [(2251799813685376, .empty)]⟩
private def exprState74 : LState := ⟨[(.assignsMore, 2, 7900153717455745)], [(20, 7900153717455745)], [(5, 75)], [(20, 135)], 32, []⟩
private def exprState75 : LState := ⟨[(.assignment, 1, 7900153717455745)], [], [(54, 56)], [], 18014398509481984, []⟩
private def exprState76 : LState := ⟨[(.assignsMore, 1, 7900153717455745), (.let_, 2, 7900153717455745)], [], [(51, 74)], [], 2251799813685248, [(5648353903770497, .let_)]⟩
private def exprKernel12 : List (Pr × Nat × Nat) := [(.exprsMore, 3, 4503599627372545), ((.bin .or), 1, 4503624860297473), ((.bin .xor), 1, 4503624860297473), ((.bin .and), 1, 4503624860297473), ((.bin .eq), 1, 4503624860297473), ((.bin .ne), 1, 4503624860297473), ((.bin .lt), 1, 4503624860297473), ((.bin .le), 1, 4503624860297473), ((.bin .gt), 1, 4503624860297473), ((.bin .ge), 1, 4503624860297473), ((.bin .bitor), 1, 4503624860297473), ((.bin .bitxor), 1, 4503624860297473), ((.bin .bitand), 1, 4503624860297473), ((.bin .plus), 1, 4503624860297473), ((.bin .minus), 1, 4503624860297473), ((.bin .times), 1, 4503624860297473), ((.bin .fdiv), 1, 4503624860297473), ((.bin .idiv), 1, 4503624860297473), ((.bin .mod), 1, 4503624860297473), ((.bin .rem), 1, 4503624860297473), ((.bin .pow), 1, 4503624860297473), (.genSet, 1, 4503624860297473), (.genGet, 1, 4503624860297473)]
private def exprState77 : LState := ⟨exprKernel12, [], exprShifts1, [], 25232924928, [(4503599627372545, .exprsMore)]⟩
private def exprKernel13 : List (Pr × Nat × Nat) := [((.bin .or), 1, 7900153717455745), ((.bin .or), 3, 7900153717455745), ((.bin .xor), 1, 7900153717455745), ((.bin .and), 1, 7900153717455745), ((.bin .eq), 1, 7900153717455745), ((.bin .ne), 1, 7900153717455745), ((.bin .lt), 1, 7900153717455745), ((.bin .le), 1, 7900153717455745), ((.bin .gt), 1, 7900153717455745), ((.bin .ge), 1, 7900153717455745), ((.bin .bitor), 1, 7900153717455745), ((.bin .bitxor), 1, 7900153717455745), ((.bin .bitand), 1, 7900153717455745), ((.bin .plus), 1, 7900153717455745), ((.bin .minus), 1, 7900153717455745), ((.bin .times), 1, 7900153717455745), ((.bin .fdiv), 1, 7900153717455745), ((.bin .idiv), 1, 7900153717455745), ((.bin .mod), 1, 7900153717455745), ((.bin .rem), 1, 7900153717455745), ((.bin .pow), 1, 7900153717455745), (.genSet, 1, 7900153717455745), (.genGet, 1, 7900153717455745)]
private def exprState78 : LState := ⟨exprKernel13, [], exprShifts1, [], 25098706944, [(7900128618748801, (.bin .or))]⟩
private def exprKernel14 : List (Pr × Nat × Nat) := [((.bin .or), 1, 7900153717455745), ((.bin .xor), 1, 7900153717455745), ((.bin .xor), 3, 7900153717455745), ((.bin .and), 1, 7900153717455745), ((.bin .eq), 1, 7900153717455745), ((.bin .ne), 1, 7900153717455745), ((.bin .lt), 1, 7900153717455745), ((.bin .le), 1, 7900153717455745), ((.bin .gt), 1, 7900153717455745), ((.bin .ge), 1, 7900153717455745), ((.bin .bitor), 1, 7900153717455745), ((.bin .bitxor), 1, 7900153717455745), ((.bin .bitand), 1, 7900153717455745), ((.bin .plus), 1, 7900153717455745), ((.bin .minus), 1, 7900153717455745), ((.bin .times), 1, 7900153717455745), ((.bin .fdiv), 1, 7900153717455745), ((.bin .idiv), 1, 7900153717455745), ((.bin .mod), 1, 7900153717455745), ((.bin .rem), 1, 7900153717455745), ((.bin .pow), 1, 7900153717455745), (.genSet, 1, 7900153717455745), (.genGet, 1, 7900153717455745)]
private def exprState79 : LState := ⟨exprKernel14, [], exprShifts1, [], 24830271488, [(7900128887184257, (.bin .xor))]⟩
private def exprKernel15 : List (Pr × Nat × Nat) := [((.bin .or), 1, 7900153717455745), ((.bin .xor), 1, 7900153717455745), ((.bin .and), 1, 7900153717455745), ((.bin .and), 3, 7900153717455745), ((.bin .eq), 1, 7900153717455745), ((.bin .ne), 1, 7900153717455745), ((.bin .lt), 1, 7900153717455745), ((.bin .le), 1, 7900153717455745), ((.bin .gt), 1, 7900153717455745), ((.bin .ge), 1, 7900153717455745), ((.bin .bitor), 1, 7900153717455745), ((.bin .bitxor), 1, 7900153717455745), ((.bin .bitand), 1, 7900153717455745), ((.bin .plus), 1, 7900153717455745), ((.bin .minus), 1, 7900153717455745), ((.bin .times), 1, 7900153717455745), ((.bin .fdiv), 1, 7900153717455745), ((.bin .idiv), 1, 7900153717455745), ((.bin .mod), 1, 7900153717455745), ((.bin .rem), 1, 7900153717455745), ((.bin .pow), 1, 7900153717455745), (.genSet, 1, 7900153717455745), (.genGet, 1, 7900153717455745)]
private def exprState80 : LState := ⟨exprKernel15, [], exprShifts1, [], 24763162624, [(7900128954293121, (.bin .and))]⟩
private def exprKernel16 : List (Pr × Nat × Nat) := [((.bin .or), 1, 7900153717455745), ((.bin .xor), 1, 7900153717455745), ((.bin .and), 1, 7900153717455745), ((.bin .eq), 1, 7900153717455745), ((.bin .eq), 3, 7900153717455745), ((.bin .ne), 1, 7900153717455745), ((.bin .lt), 1, 7900153717455745), ((.bin .le), 1, 7900153717455745), ((.bin .gt), 1, 7900153717455745), ((.bin .ge), 1, 7900153717455745), ((.bin .bitor), 1, 7900153717455745), ((.bin .bitxor), 1, 7900153717455745), ((.bin .bitand), 1, 7900153717455745), ((.bin .plus), 1, 7900153717455745), ((.bin .minus), 1, 7900153717455745), ((.bin .times), 1, 7900153717455745), ((.bin .fdiv), 1, 7900153717455745), ((.bin .idiv), 1, 7900153717455745), ((.bin .mod), 1, 7900153717455745), ((.bin .rem), 1, 7900153717455745), ((.bin .pow), 1, 7900153717455745), (.genSet, 1, 7900153717455745), (.genGet, 1, 7900153717455745)]
private def exprState81 : LState := ⟨exprKernel16, [], exprShifts1, [], 24697102336, [(7900128954293121, (.bin .eq))]⟩
private def exprKernel17 : List (Pr × Nat × Nat) := [((.bin .or), 1, 7900153717455745), ((.bin .xor), 1, 7900153717455745), ((.bin .and), 1, 7900153717455745), ((.bin .eq), 1, 7900153717455745), ((.bin .ne), 1, 7900153717455745), ((.bin .ne), 3, 7900153717455745), ((.bin .lt), 1, 7900153717455745), ((.bin .le), 1, 7900153717455745), ((.bin .gt), 1, 7900153717455745), ((.bin .ge), 1, 7900153717455745), ((.bin .bitor), 1, 7900153717455745), ((.bin .bitxor), 1, 7900153717455745), ((.bin .bitand), 1, 7900153717455745), ((.bin .plus), 1, 7900153717455745), ((.bin .minus), 1, 7900153717455745), ((.bin .times), 1, 7900153717455745), ((.bin .fdiv), 1, 7900153717455745), ((.bin .idiv), 1, 7900153717455745), ((.bin .mod), 1, 7900153717455745), ((.bin .rem), 1, 7900153717455745), ((.bin .pow), 1, 7900153717455745), (.genSet, 1, 7900153717455745), (.genGet, 1, 7900153717455745)]
private def exprState82 : LState := ⟨exprKernel17, [], exprShifts1, [], 24697102336, [(7900128954293121, (.bin .ne))]⟩
private def exprKernel18 : List (Pr × Nat × Nat) := [((.bin .or), 1, 7900153717455745), ((.bin .xor), 1, 7900153717455745), ((.bin .and), 1, 7900153717455745), ((.bin .eq), 1, 7900153717455745), ((.bin .ne), 1, 7900153717455745), ((.bin .lt), 1, 7900153717455745), ((.bin .lt), 3, 7900153717455745), ((.bin .le), 1, 7900153717455745), ((.bin .gt), 1, 7900153717455745), ((.bin .ge), 1, 7900153717455745), ((.bin .bitor), 1, 7900153717455745), ((.bin .bitxor), 1, 7900153717455745), ((.bin .bitand), 1, 7900153717455745), ((.bin .plus), 1, 7900153717455745), ((.bin .minus), 1, 7900153717455745), ((.bin .times), 1, 7900153717455745), ((.bin .fdiv), 1, 7900153717455745), ((.bin .idiv), 1, 7900153717455745), ((.bin .mod), 1, 7900153717455745), ((.bin .rem), 1, 7900153717455745), ((.bin .pow), 1, 7900153717455745), (.genSet, 1, 7900153717455745), (.genGet, 1, 7900153717455745)]
private def exprState83 : LState := ⟨exprKernel18, [], exprShifts1, [], 24697102336, [(7900128954293121, (.bin .lt))]⟩
private def exprKernel19 : List (Pr × Nat × Nat) := [((.bin .or), 1, 7900153717455745), ((.bin .xor), 1, 7900153717455745), ((.bin .and), 1, 7900153717455745), ((.bin .eq), 1, 7900153717455745), ((.bin .ne), 1, 7900153717455745), ((.bin .lt), 1, 7900153717455745), ((.bin .le), 1, 7900153717455745), ((.bin .le), 3, 7900153717455745), ((.bin .gt), 1, 7900153717455745), ((.bin .ge), 1, 7900153717455745), ((.bin .bitor), 1, 7900153717455745), ((.bin .bitxor), 1, 7900153717455745), ((.bin .bitand), 1, 7900153717455745), ((.bin .plus), 1, 7900153717455745), ((.bin .minus), 1, 7900153717455745), ((.bin .times), 1, 7900153717455745), ((.bin .fdiv), 1, 7900153717455745), ((.bin .idiv), 1, 7900153717455745), ((.bin .mod), 1, 7900153717455745), ((.bin .rem), 1, 7900153717455745), ((.bin .pow), 1, 7900153717455745), (.genSet, 1, 7900153717455745), (.genGet, 1, 7900153717455745)]
private def exprState84 : LState := ⟨exprKernel19, [], exprShifts1, [], 24697102336, [(7900128954293121, (.bin .le))]⟩
private def exprKernel20 : List (Pr × Nat × Nat) := [((.bin .or), 1, 7900153717455745), ((.bin .xor), 1, 7900153717455745), ((.bin .and), 1, 7900153717455745), ((.bin .eq), 1, 7900153717455745), ((.bin .ne), 1, 7900153717455745), ((.bin .lt), 1, 7900153717455745), ((.bin .le), 1, 7900153717455745), ((.bin .gt), 1, 7900153717455745), ((.bin .gt), 3, 7900153717455745), ((.bin .ge), 1, 7900153717455745), ((.bin .bitor), 1, 7900153717455745), ((.bin .bitxor), 1, 7900153717455745), ((.bin .bitand), 1, 7900153717455745), ((.bin .plus), 1, 7900153717455745), ((.bin .minus), 1, 7900153717455745), ((.bin .times), 1, 7900153717455745), ((.bin .fdiv), 1, 7900153717455745), ((.bin .idiv), 1, 7900153717455745), ((.bin .mod), 1, 7900153717455745), ((.bin .rem), 1, 7900153717455745), ((.bin .pow), 1, 7900153717455745), (.genSet, 1, 7900153717455745), (.genGet, 1, 7900153717455745)]
private def exprState85 : LState := ⟨exprKernel20, [], exprShifts1, [], 24697102336, [(7900128954293121, (.bin .gt))]⟩
private def exprKernel21 : List (Pr × Nat × Nat) := [((.bin .or), 1, 7900153717455745), ((.bin .xor), 1, 7900153717455745), ((.bin .and), 1, 7900153717455745), ((.bin .eq), 1, 7900153717455745), ((.bin .ne), 1, 7900153717455745), ((.bin .lt), 1, 7900153717455745), ((.bin .le), 1, 7900153717455745), ((.bin .gt), 1, 7900153717455745), ((.bin .ge), 1, 7900153717455745), ((.bin .ge), 3, 7900153717455745), ((.bin .bitor), 1, 7900153717455745), ((.bin .bitxor), 1, 7900153717455745), ((.bin .bitand), 1, 7900153717455745), ((.bin .plus), 1, 7900153717455745), ((.bin .minus), 1, 7900153717455745), ((.bin .times), 1, 7900153717455745), ((.bin .fdiv), 1, 7900153717455745), ((.bin .idiv), 1, 7900153717455745), ((.bin .mod), 1, 7900153717455745), ((.bin .rem), 1, 7900153717455745), ((.bin .pow), 1, 7900153717455745), (.genSet, 1, 7900153717455745), (.genGet, 1, 7900153717455745)]
private def exprState86 : LState := ⟨exprKernel21, [], exprShifts1, [], 24697102336, [(7900128954293121, (.bin .ge))]⟩
private def exprKernel22 : List (Pr × Nat × Nat) := [((.bin .or), 1, 7900153717455745), ((.bin .xor), 1, 7900153717455745), ((.bin .and), 1, 7900153717455745), ((.bin .eq), 1, 7900153717455745), ((.bin .ne), 1, 7900153717455745), ((.bin .lt), 1, 7900153717455745), ((.bin .le), 1, 7900153717455745), ((.bin .gt), 1, 7900153717455745), ((.bin .ge), 1, 7900153717455745), ((.bin .bitor), 1, 7900153717455745), ((.bin .bitor), 3, 7900153717455745), ((.bin .bitxor), 1, 7900153717455745), ((.bin .bitand), 1, 7900153717455745), ((.bin .plus), 1, 7900153717455745), ((.bin .minus), 1, 7900153717455745), ((.bin .times), 1, 7900153717455745), ((.bin .fdiv), 1, 7900153717455745), ((.bin .idiv), 1, 7900153717455745), ((.bin .mod), 1, 7900153717455745), ((.bin .rem), 1, 7900153717455745), ((.bin .pow), 1, 7900153717455745), (.genSet, 1, 7900153717455745), (.genGet, 1, 7900153717455745)]
private def exprState87 : LState := ⟨exprKernel22, [], exprShifts1, [], 22549618688, [(7900131167837057, (.bin .bitor))]⟩
private def exprKernel23 : List (Pr × Nat × Nat) := [((.bin .or), 1, 7900153717455745), ((.bin .xor), 1, 7900153717455745), ((.bin .and), 1, 7900153717455745), ((.bin .eq), 1, 7900153717455745), ((.bin .ne), 1, 7900153717455745), ((.bin .lt), 1, 7900153717455745), ((.bin .le), 1, 7900153717455745), ((.bin .gt), 1, 7900153717455745), ((.bin .ge), 1, 7900153717455745), ((.bin .bitor), 1, 7900153717455745), ((.bin .bitxor), 1, 7900153717455745), ((.bin .bitxor), 3, 7900153717455745), ((.bin .bitand), 1, 7900153717455745), ((.bin .plus), 1, 7900153717455745), ((.bin .minus), 1, 7900153717455745), ((.bin .times), 1, 7900153717455745), ((.bin .fdiv), 1, 7900153717455745), ((.bin .idiv), 1, 7900153717455745), ((.bin .mod), 1, 7900153717455745), ((.bin .rem), 1, 7900153717455745), ((.bin .pow), 1, 7900153717455745), (.genSet, 1, 7900153717455745), (.genGet, 1, 7900153717455745)]
private def exprState88 : LState := ⟨exprKernel23, [], exprShifts1, [], 18254651392, [(7900135462804353, (.bin .bitxor))]⟩
private def exprKernel24 : List (Pr × Nat × Nat) := [((.bin .or), 1, 7900153717455745), ((.bin .xor), 1, 7900153717455745), ((.bin .and), 1, 7900153717455745), ((.bin .eq), 1, 7900153717455745), ((.bin .ne), 1, 7900153717455745), ((.bin .lt), 1, 7900153717455745), ((.bin .le), 1, 7900153717455745), ((.bin .gt), 1, 7900153717455745), ((.bin .ge), 1, 7900153717455745), ((.bin .bitor), 1, 7900153717455745), ((.bin .bitxor), 1, 7900153717455745), ((.bin .bitand), 1, 7900153717455745), ((.bin .bitand), 3, 7900153717455745), ((.bin .plus), 1, 7900153717455745), ((.bin .minus), 1, 7900153717455745), ((.bin .times), 1, 7900153717455745), ((.bin .fdiv), 1, 7900153717455745), ((.bin .idiv), 1, 7900153717455745), ((.bin .mod), 1, 7900153717455745), ((.bin .rem), 1, 7900153717455745), ((.bin .pow), 1, 7900153717455745), (.genSet, 1, 7900153717455745), (.genGet, 1, 7900153717455745)]
private def exprState89 : LState := ⟨exprKernel24, [], exprShifts1, [], 17180909568, [(7900136536546177, (.bin .bitand))]⟩
private def exprKernel25 : List (Pr × Nat × Nat) := [((.bin .or), 1, 7900153717455745), ((.bin .xor), 1, 7900153717455745), ((.bin .and), 1, 7900153717455745), ((.bin .eq), 1, 7900153717455745), ((.bin .ne), 1, 7900153717455745), ((.bin .lt), 1, 7900153717455745), ((.bin .le), 1, 7900153717455745), ((.bin .gt), 1, 7900153717455745), ((.bin .ge), 1, 7900153717455745), ((.bin .bitor), 1, 7900153717455745), ((.bin .bitxor), 1, 7900153717455745), ((.bin .bitand), 1, 7900153717455745), ((.bin .plus), 1, 7900153717455745), ((.bin .plus), 3, 7900153717455745), ((.bin .minus), 1, 7900153717455745), ((.bin .times), 1, 7900153717455745), ((.bin .fdiv), 1, 7900153717455745), ((.bin .idiv), 1, 7900153717455745), ((.bin .mod), 1, 7900153717455745), ((.bin .rem), 1, 7900153717455745), ((.bin .pow), 1, 7900153717455745), (.genSet, 1, 7900153717455745), (.genGet, 1, 7900153717455745)]
private def exprState90 : LState := ⟨exprKernel25, [], exprShifts1, [], 17180884992, [(7900136536570753, (.bin .plus))]⟩
private def exprKernel26 : List (Pr × Nat × Nat) := [((.bin .or), 1, 7900153717455745), ((.bin .xor), 1, 7900153717455745), ((.bin .and), 1, 7900153717455745), ((.bin .eq), 1, 7900153717455745), ((.bin .ne), 1, 7900153717455745), ((.bin .lt), 1, 7900153717455745), ((.bin .le), 1, 7900153717455745), ((.bin .gt), 1, 7900153717455745), ((.bin .ge), 1, 7900153717455745), ((.bin .bitor), 1, 7900153717455745), ((.bin .bitxor), 1, 7900153717455745), ((.bin .bitand), 1, 7900153717455745), ((.bin .plus), 1, 7900153717455745), ((.bin .minus), 1, 7900153717455745), ((.bin .minus), 3, 7900153717455745), ((.bin .times), 1, 7900153717455745), ((.bin .fdiv), 1, 7900153717455745), ((.bin .idiv), 1, 7900153717455745), ((.bin .mod), 1, 7900153717455745), ((.bin .rem), 1, 7900153717455745), ((.bin .pow), 1, 7900153717455745), (.genSet, 1, 7900153717455745), (.genGet, 1, 7900153717455745)]
private def exprState91 : LState := ⟨exprKernel26, [], exprShifts1, [], 17180884992, [(7900136536570753, (.bin .minus))]⟩
private def exprKernel27 : List (Pr × Nat × Nat) := [((.bin .or), 1, 7900153717455745), ((.bin .xor), 1, 7900153717455745), ((.bin .and), 1, 7900153717455745), ((.bin .eq), 1, 7900153717455745), ((.bin .ne), 1, 7900153717455745), ((.bin .lt), 1, 7900153717455745), ((.bin .le), 1, 7900153717455745), ((.bin .gt), 1, 7900153717455745), ((.bin .ge), 1, 7900153717455745), ((.bin .bitor), 1, 7900153717455745), ((.bin .bitxor), 1, 7900153717455745), ((.bin .bitand), 1, 7900153717455745), ((.bin .plus), 1, 7900153717455745), ((.bin .minus), 1, 7900153717455745), ((.bin .times), 1, 7900153717455745), ((.bin .times), 3, 7900153717455745), ((.bin .fdiv), 1, 7900153717455745), ((.bin .idiv), 1, 7900153717455745), ((.bin .mod), 1, 7900153717455745), ((.bin .rem), 1, 7900153717455745), ((.bin .pow), 1, 7900153717455745), (.genSet, 1, 7900153717455745), (.genGet, 1, 7900153717455745)]
private def exprState92 : LState := ⟨exprKernel27, [], exprShifts1, [], 524288, [(7900153716931457, (.bin .times))]⟩
private def exprKernel28 : List (Pr × Nat × Nat) := [((.bin .or), 1, 7900153717455745), ((.bin .xor), 1, 7900153717455745), ((.bin .and), 1, 7900153717455745), ((.bin .eq), 1, 7900153717455745), ((.bin .ne), 1, 7900153717455745), ((.bin .lt), 1, 7900153717455745), ((.bin .le), 1, 7900153717455745), ((.bin .gt), 1, 7900153717455745), ((.bin .ge), 1, 7900153717455745), ((.bin .bitor), 1, 7900153717455745), ((.bin .bitxor), 1, 7900153717455745), ((.bin .bitand), 1, 7900153717455745), ((.bin .plus), 1, 7900153717455745), ((.bin .minus), 1, 7900153717455745), ((.bin .times), 1, 7900153717455745), ((.bin .fdiv), 1, 7900153717455745), ((.bin .fdiv), 3, 7900153717455745), ((.bin .idiv), 1, 7900153717455745), ((.bin .mod), 1, 7900153717455745), ((.bin .rem), 1, 7900153717455745), ((.bin .pow), 1, 7900153717455745), (.genSet, 1, 7900153717455745), (.genGet, 1, 7900153717455745)]
private def exprState93 : LState := ⟨exprKernel28, [], exprShifts1, [], 524288, [(7900153716931457, (.bin .fdiv))]⟩
private def exprKernel29 : List (Pr × Nat × Nat) := [((.bin .or), 1, 7900153717455745), ((.bin .xor), 1, 7900153717455745), ((.bin .and), 1, 7900153717455745), ((.bin .eq), 1, 7900153717455745), ((.bin .ne), 1, 7900153717455745), ((.bin .lt), 1, 7900153717455745), ((.bin .le), 1, 7900153717455745), ((.bin .gt), 1, 7900153717455745), ((.bin .ge), 1, 7900153717455745), ((.bin .bitor), 1, 7900153717455745), ((.bin .bitxor), 1, 7900153717455745), ((.bin .bitand), 1, 7900153717455745), ((.bin .plus), 1, 7900153717455745), ((.bin .minus), 1, 7900153717455745), ((.bin .times), 1, 7900153717455745), ((.bin .fdiv), 1, 7900153717455745), ((.bin .idiv), 1, 7900153717455745), ((.bin .idiv), 3, 7900153717455745), ((.bin .mod), 1, 7900153717455745), ((.bin .rem), 1, 7900153717455745), ((.bin .pow), 1, 7900153717455745), (.genSet, 1, 7900153717455745), (.genGet, 1, 7900153717455745)]
private def exprState94 : LState := ⟨exprKernel29, [], exprShifts1, [], 524288, [(7900153716931457, (.bin .idiv))]⟩
private def exprKernel30 : List (Pr × Nat × Nat) := [((.bin .or), 1, 7900153717455745), ((.bin .xor), 1, 7900153717455745), ((.bin .and), 1, 7900153717455745), ((.bin .eq), 1, 7900153717455745), ((.bin .ne), 1, 7900153717455745), ((.bin .lt), 1, 7900153717455745), ((.bin .le), 1, 7900153717455745), ((.bin .gt), 1, 7900153717455745), ((.bin .ge), 1, 7900153717455745), ((.bin .bitor), 1, 7900153717455745), ((.bin .bitxor), 1, 7900153717455745), ((.bin .bitand), 1, 7900153717455745), ((.bin .plus), 1, 7900153717455745), ((.bin .minus), 1, 7900153717455745), ((.bin .times), 1, 7900153717455745), ((.bin .fdiv), 1, 7900153717455745), ((.bin .idiv), 1, 7900153717455745), ((.bin .mod), 1, 7900153717455745), ((.bin .mod), 3, 7900153717455745), ((.bin .rem), 1, 7900153717455745), ((.bin .pow), 1, 7900153717455745), (.genSet, 1, 7900153717455745), (.genGet, 1, 7900153717455745)]
private def exprState95 : LState := ⟨exprKernel30, [], exprShifts1, [], 524288, [(7900153716931457, (.bin .mod))]⟩
private def exprKernel31 : List (Pr × Nat × Nat) := [((.bin .or), 1, 7900153717455745), ((.bin .xor), 1, 7900153717455745), ((.bin .and), 1, 7900153717455745), ((.bin .eq), 1, 7900153717455745), ((.bin .ne), 1, 7900153717455745), ((.bin .lt), 1, 7900153717455745), ((.bin .le), 1, 7900153717455745), ((.bin .gt), 1, 7900153717455745), ((.bin .ge), 1, 7900153717455745), ((.bin .bitor), 1, 7900153717455745), ((.bin .bitxor), 1, 7900153717455745), ((.bin .bitand), 1, 7900153717455745), ((.bin .plus), 1, 7900153717455745), ((.bin .minus), 1, 7900153717455745), ((.bin .times), 1, 7900153717455745), ((.bin .fdiv), 1, 7900153717455745), ((.bin .idiv), 1, 7900153717455745), ((.bin .mod), 1, 7900153717455745), ((.bin .rem), 1, 7900153717455745), ((.bin .rem), 3, 7900153717455745), ((.bin .pow), 1, 7900153717455745), (.genSet, 1, 7900153717455745), (.genGet, 1, 7900153717455745)]
private def exprState96 : LState := ⟨exprKernel31, [], exprShifts1, [], 524288, [(7900153716931457, (.bin .rem))]⟩
private def exprKernel32 : List (Pr × Nat × Nat) := [((.bin .or), 1, 7900153717455745), ((.bin .xor), 1, 7900153717455745), ((.bin .and), 1, 7900153717455745), ((.bin .eq), 1, 7900153717455745), ((.bin .ne), 1, 7900153717455745), ((.bin .lt), 1, 7900153717455745), ((.bin .le), 1, 7900153717455745), ((.bin .gt), 1, 7900153717455745), ((.bin .ge), 1, 7900153717455745), ((.bin .bitor), 1, 7900153717455745), ((.bin .bitxor), 1, 7900153717455745), ((.bin .bitand), 1, 7900153717455745), ((.bin .plus), 1, 7900153717455745), ((.bin .minus), 1, 7900153717455745), ((.bin .times), 1, 7900153717455745), ((.bin .fdiv), 1, 7900153717455745), ((.bin .idiv), 1, 7900153717455745), ((.bin .mod), 1, 7900153717455745), ((.bin .rem), 1, 7900153717455745), ((.bin .pow), 1, 7900153717455745), ((.bin .pow), 3, 7900153717455745), (.genSet, 1, 7900153717455745), (.genGet, 1, 7900153717455745)]
private def exprState97 : LState := ⟨exprKernel32, [], exprShifts1, [], 0, [(7900153717455745, (.bin .pow))]⟩
private def exprGotos39 : List (Nat × Nat) := [(5, 22), (6, 101), (7, 104), (8, 136), (10, 100), (11, 99), (13, 102), (20, 19), (21, 20), (22, 103)]
private def exprState98 : LState := ⟨[(.bracketed, 1, 7900153717455745)], exprClos6, exprShifts5, exprGotos39, 544095583880574, [(2251799813685760, .empty)]⟩
private def exprKernel33 : List (Pr × Nat × Nat) := [(.argE, 1, 7900153717455745), ((.bin .or), 1, 7900153717455745), ((.bin .xor), 1, 7900153717455745), ((.bin .and), 1, 7900153717455745), ((.bin .eq), 1, 7900153717455745), ((.bin .ne), 1, 7900153717455745), ((.bin .lt), 1, 7900153717455745), ((.bin .le), 1, 7900153717455745), ((.bin .gt), 1, 7900153717455745), ((.bin .ge), 1, 7900153717455745), ((.bin .bitor), 1, 7900153717455745), ((.bin .bitxor), 1, 7900153717455745), ((.bin .bitand), 1, 7900153717455745), ((.bin .plus), 1, 7900153717455745), ((.bin .minus), 1, 7900153717455745), ((.bin .times), 1, 7900153717455745), ((.bin .fdiv), 1, 7900153717455745), ((.bin .idiv), 1, 7900153717455745), ((.bin .mod), 1, 7900153717455745), ((.bin .rem), 1, 7900153717455745), ((.bin .pow), 1, 7900153717455745), (.genSet, 1, 7900153717455745), (.genGet, 1, 7900153717455745)]
private def exprState99 : LState := ⟨exprKernel33, [], exprShifts1, [], 25232924928, [(7900128484530817, .argE)]⟩
private def exprState100 : LState := ⟨[(.argP, 1, 7900153717455745)], [], [], [], 0, [(7900153717455745, .argP)]⟩
private def exprState101 : LState := ⟨[(.argB, 1, 7900153717455745)], [], [], [], 0, [(7900153717455745, .argB)]⟩
private def exprState102 : LState := ⟨[(.argF, 1, 7900153717455745)], [], [], [], 0, [(7900153717455745, .argF)]⟩
private def exprState103 : LState := ⟨[(.args0, 1, 2251799813685888)], [], [], [], 0, [(2251799813685888, .args0)]⟩
private def exprState104 : LState := ⟨[(.args1, 1, 2251799813685888)], [], [], [], 0, [(2251799813685888, .args1)]⟩
private def exprState105 : LState := ⟨[(.argsMore, 1, 2251799813685760), (.genSet, 3, 7900153717455745), (.genGet, 3, 7900153717455745)], [], [(9, 138), (51, 137)], [], 2251799813685760, []⟩
private def exprState106 : LState := ⟨[(.fcnE, 1, 7900153717455745), (.fcnB, 1, 7900153717455745)], [], [(6, 139)], [], 64, []⟩
private def exprState107 : LState := ⟨[(.blockE, 3, 7900153717455745)], [], [], [], 0, [(7900153717455745, .blockE)]⟩
private def exprState108 : LState := ⟨[(.blockP, 3, 7900153717455745)], [], [], [], 0, [(7900153717455745, .blockP)]⟩
private def exprState109 : LState := ⟨[(.paramsMore, 2, 2251799813691520)], [(10, 2251799813691520)], [(2, 130), (3, 131), (5, 129)], [(10, 140)], 44, []⟩
private def exprGotos40 : List (Nat × Nat) := [(5, 22), (6, 101), (7, 141), (10, 100), (11, 99), (13, 102), (20, 19), (21, 20)]
private def exprState110 : LState := ⟨[(.paramName, 2, 7900153717455745)], exprClos8, exprShifts5, exprGotos40, 544095583880574, []⟩
private def exprGotos41 : List (Nat × Nat) := [(5, 22), (6, 101), (7, 142), (10, 100), (11, 99), (13, 102), (20, 19), (21, 20)]
private def exprState111 : LState := ⟨[(.paramStr, 2, 7900153717455745)], exprClos8, exprShifts5, exprGotos41, 544095583880574, []⟩
private def exprGotos42 : List (Nat × Nat) := [(5, 22), (6, 101), (7, 143), (10, 100), (11, 99), (13, 102), (20, 19), (21, 20)]
private def exprState112 : LState := ⟨[(.paramRaw, 2, 7900153717455745)], exprClos8, exprShifts5, exprGotos42, 544095583880574, []⟩
private def exprState113 : LState := ⟨[(.argsMore, 1, 2251799813685376), (.call, 3, 7900153717455745)], [], [(7, 144), (51, 137)], [], 2251799813685376, []⟩
private def exprKernel34 : List (Pr × Nat × Nat) := [((.bin .or), 1, 7900153717455745), ((.bin .xor), 1, 7900153717455745), ((.bin .and), 1, 7900153717455745), ((.bin .eq), 1, 7900153717455745), ((.bin .ne), 1, 7900153717455745), ((.bin .lt), 1, 7900153717455745), ((.bin .le), 1, 7900153717455745), ((.bin .gt), 1, 7900153717455745), ((.bin .ge), 1, 7900153717455745), ((.bin .bitor), 1, 7900153717455745), ((.bin .bitxor), 1, 7900153717455745), ((.bin .bitand), 1, 7900153717455745), ((.bin .plus), 1, 7900153717455745), ((.bin .minus), 1, 7900153717455745), ((.bin .times), 1, 7900153717455745), ((.bin .fdiv), 1, 7900153717455745), ((.bin .idiv), 1, 7900153717455745), ((.bin .mod), 1, 7900153717455745), ((.bin .rem), 1, 7900153717455745), ((.bin .pow), 1, 7900153717455745), (.genSet, 1, 7900153717455745), (.assignment, 3, 7900153717455745), (.genGet, 1, 7900153717455745)]
private def exprState114 : LState := ⟨exprKernel34, [], exprShifts1, [], 25232924928, [(7900128484530817, .assignment)]⟩
private def exprKernel35 : List (Pr × Nat × Nat) := [(.argsMore, 1, 2251799813685760), (.get, 3, 7900153717455745), (.to1, 3, 7900153717455745), (.to2, 3, 7900153717455745), (.to3, 3, 7900153717455745)]
private def exprState115 : LState := ⟨exprKernel35, [], [(9, 145), (51, 137)], [], 2251799813685760, []⟩
private def exprState116 : LState := ⟨[(.to4, 3, 7900153717455745), (.to5, 3, 7900153717455745)], [], [(50, 146)], [], 1125899906842624, [(6774253810613121, .to4)]⟩
private def exprState117 : LState := ⟨[(.enumSym, 3, 7900153717455745)], [], [], [], 0, [(7900153717455745, .enumSym)]⟩
private def exprState118 : LState := ⟨[(.group, 3, 7900153717455745)], [], [], [], 0, [(7900153717455745, .group)]⟩
private def exprKernel36 : List (Pr × Nat × Nat) := [((.bin .or), 1, 25232925056), ((.bin .xor), 1, 25232925056), ((.bin .and), 1, 25232925056), ((.bin .eq), 1, 25232925056), ((.bin .ne), 1, 25232925056), ((.bin .lt), 1, 25232925056), ((.bin .le), 1, 25232925056), ((.bin .gt), 1, 25232925056), ((.bin .ge), 1, 25232925056), ((.bin .bitor), 1, 25232925056), ((.bin .bitxor), 1, 25232925056), ((.bin .bitand), 1, 25232925056), ((.bin .plus), 1, 25232925056), ((.bin .minus), 1, 25232925056), ((.bin .times), 1, 25232925056), ((.bin .fdiv), 1, 25232925056), ((.bin .idiv), 1, 25232925056), ((.bin .mod), 1, 25232925056), ((.bin .rem), 1, 25232925056), ((.bin .pow), 1, 25232925056), (.if1, 3, 7900153717455745), (.if2, 3, 7900153717455745), (.genSet, 1, 25232925056), (.genGet, 1, 25232925056)]
private def exprShifts9 : List (Nat × Nat) := [(7, 147), (8, 47), (13, 39), (14, 40), (15, 41), (16, 42), (17, 44), (18, 45), (19, 46), (20, 30), (21, 31), (22, 32), (23, 33), (24, 34), (25, 35), (26, 29), (27, 27), (28, 28), (30, 38), (31, 36), (32, 37), (34, 43)]
private def exprState119 : LState := ⟨exprKernel36, [], exprShifts9, [], 25232925056, []⟩
private def exprKernel37 : List (Pr × Nat × Nat) := [((.bin .or), 1, 25232925056), ((.bin .xor), 1, 25232925056), ((.bin .and), 1, 25232925056), ((.bin .eq), 1, 25232925056), ((.bin .ne), 1, 25232925056), ((.bin .lt), 1, 25232925056), ((.bin .le), 1, 25232925056), ((.bin .gt), 1, 25232925056), ((.bin .ge), 1, 25232925056), ((.bin .bitor), 1, 25232925056), ((.bin .bitxor), 1, 25232925056), ((.bin .bitand), 1, 25232925056), ((.bin .plus), 1, 25232925056), ((.bin .minus), 1, 25232925056), ((.bin .times), 1, 25232925056), ((.bin .fdiv), 1, 25232925056), ((.bin .idiv), 1, 25232925056), ((.bin .mod), 1, 25232925056), ((.bin .rem), 1, 25232925056), ((.bin .pow), 1, 25232925056), (.while_, 3, 7900153717455745), (.genSet, 1, 25232925056), (.genGet, 1, 25232925056)]
private def exprShifts10 : List (Nat × Nat) := [(7, 148), (8, 47), (13, 39), (14, 40), (15, 41), (16, 42), (17, 44), (18, 45), (19, 46), (20, 30), (21, 31), (22, 32), (23, 33), (24, 34), (25, 35), (26, 29), (27, 27), (28, 28), (30, 38), (31, 36), (32, 37), (34, 43)]
private def exprState120 : LState := ⟨exprKernel37, [], exprShifts10, [], 25232925056, []⟩
private def exprState121 : LState := ⟨[(.doUntil, 3, 7900153717455745)], [], [(6, 149)], [], 64, []⟩
private def exprState122 : LState := ⟨[(.for_, 3, 7900153717455745), (.assignsMore, 1, 6755399441055744)], [], [(51, 74), (52, 150)], [], 6755399441055744, []⟩
private def exprState123 : LState := ⟨[(.paramName, 1, 2251799813685376), (.pairName, 3, 7900153717455745)], [], [(51, 151), (53, 110)], [], 11258999068426240, []⟩
private def exprState124 : LState := ⟨[(.paramStr, 1, 2251799813685376), (.pairStr, 3, 7900153717455745)], [], [(51, 152), (53, 111)], [], 11258999068426240, []⟩
private def exprState125 : LState := ⟨[(.paramRaw, 1, 2251799813685376), (.pairRaw, 3, 7900153717455745)], [], [(51, 153), (53, 112)], [], 11258999068426240, []⟩
private def exprState126 : LState := ⟨[(.each1, 3, 7900153717455745), (.each2, 3, 7900153717455745)], [], [(7, 154), (51, 155)], [], 2251799813685376, []⟩
private def exprKernel38 : List (Pr × Nat × Nat) := [((.bin .or), 1, 2251825046610304), ((.bin .xor), 1, 2251825046610304), ((.bin .and), 1, 2251825046610304), ((.bin .eq), 1, 2251825046610304), ((.bin .ne), 1, 2251825046610304), ((.bin .lt), 1, 2251825046610304), ((.bin .le), 1, 2251825046610304), ((.bin .gt), 1, 2251825046610304), ((.bin .ge), 1, 2251825046610304), ((.bin .bitor), 1, 2251825046610304), ((.bin .bitxor), 1, 2251825046610304), ((.bin .bitand), 1, 2251825046610304), ((.bin .plus), 1, 2251825046610304), ((.bin .minus), 1, 2251825046610304), ((.bin .times), 1, 2251825046610304), ((.bin .fdiv), 1, 2251825046610304), ((.bin .idiv), 1, 2251825046610304), ((.bin .mod), 1, 2251825046610304), ((.bin .rem), 1, 2251825046610304), ((.bin .pow), 1, 2251825046610304), (.cast1, 3, 7900153717455745), (.cast2, 3, 7900153717455745), (.genSet, 1, 2251825046610304), (.genGet, 1, 2251825046610304)]
private def exprShifts11 : List (Nat × Nat) := [(7, 156), (8, 47), (13, 39), (14, 40), (15, 41), (16, 42), (17, 44), (18, 45), (19, 46), (20, 30), (21, 31), (22, 32), (23, 33), (24, 34), (25, 35), (26, 29), (27, 27), (28, 28), (30, 38), (31, 36), (32, 37), (34, 43), (51, 157)]
private def exprState127 : LState := ⟨exprKernel38, [], exprShifts11, [], 2251825046610304, []⟩
private def exprState128 : LState := ⟨[(.paramsMore, 1, 2251799813685376), (.ifnn1, 3, 7900153717455745), (.ifnn2, 3, 7900153717455745)], [], [(7, 158), (51, 109)], [], 2251799813685376, []⟩
private def exprState129 : LState := ⟨[(.paramName, 1, 2251799813691520)], [], [(53, 110)], [], 9007199254740992, []⟩
private def exprState130 : LState := ⟨[(.paramStr, 1, 2251799813691520)], [], [(53, 111)], [], 9007199254740992, []⟩
private def exprState131 : LState := ⟨[(.paramRaw, 1, 2251799813691520)], [], [(53, 112)], [], 9007199254740992, []⟩
private def exprKernel39 : List (Pr × Nat × Nat) := [((.bin .or), 1, 2251825046610176), ((.bin .xor), 1, 2251825046610176), ((.bin .and), 1, 2251825046610176), ((.bin .eq), 1, 2251825046610176), ((.bin .ne), 1, 2251825046610176), ((.bin .lt), 1, 2251825046610176), ((.bin .le), 1, 2251825046610176), ((.bin .gt), 1, 2251825046610176), ((.bin .ge), 1, 2251825046610176), ((.bin .bitor), 1, 2251825046610176), ((.bin .bitxor), 1, 2251825046610176), ((.bin .bitand), 1, 2251825046610176), ((.bin .plus), 1, 2251825046610176), ((.bin .minus), 1, 2251825046610176), ((.bin .times), 1, 2251825046610176), ((.bin .fdiv), 1, 2251825046610176), ((.bin .idiv), 1, 2251825046610176), ((.bin .mod), 1, 2251825046610176), ((.bin .rem), 1, 2251825046610176), ((.bin .pow), 1, 2251825046610176), (.unpack1, 3, 7900153717455745), (.unpack2, 3, 7900153717455745), (.genSet, 1, 2251825046610176), (.genGet, 1, 2251825046610176)]
private def exprShifts12 : List (Nat × Nat) := [(8, 47), (13, 39), (14, 40), (15, 41), (16, 42), (17, 44), (18, 45), (19, 46), (20, 30), (21, 31), (22, 32), (23, 33), (24, 34), (25, 35), (26, 29), (27, 27), (28, 28), (30, 38), (31, 36), (32, 37), (34, 43), (51, 159)]
private def exprState132 : LState := ⟨exprKernel39, [], exprShifts12, [], 2251825046610176, []⟩
private def exprKernel40 : List (Pr × Nat × Nat) := [(.argE, 1, 2251799813685376), ((.bin .or), 1, 2251825046610304), ((.bin .xor), 1, 2251825046610304), ((.bin .and), 1, 2251825046610304), ((.bin .eq), 1, 2251825046610304), ((.bin .ne), 1, 2251825046610304), ((.bin .lt), 1, 2251825046610304), ((.bin .le), 1, 2251825046610304), ((.bin .gt), 1, 2251825046610304), ((.bin .ge), 1, 2251825046610304), ((.bin .bitor), 1, 2251825046610304), ((.bin .bitxor), 1, 2251825046610304), ((.bin .bitand), 1, 2251825046610304), ((.bin .plus), 1, 2251825046610304), ((.bin .minus), 1, 2251825046610304), ((.bin .times), 1, 2251825046610304), ((.bin .fdiv), 1, 2251825046610304), ((.bin .idiv), 1, 2251825046610304), ((.bin .mod), 1, 2251825046610304), ((.bin .rem), 1, 2251825046610304), ((.bin .pow), 1, 2251825046610304), (.group, 2, 7900153717455745), (.try2, 3, 7900153717455745), (.genSet, 1, 2251825046610304), (.genGet, 1, 2251825046610304)]
private def exprShifts13 : List (Nat × Nat) := [(7, 160), (8, 47), (13, 39), (14, 40), (15, 41), (16, 42), (17, 44), (18, 45), (19, 46), (20, 30), (21, 31), (22, 32), (23, 33), (24, 34), (25, 35), (26, 29), (27, 27), (28, 28), (30, 38), (31, 36), (32, 37), (34, 43)]
private def exprState133 : LState := ⟨exprKernel40, [], exprShifts13, [], 25232925056, [(2251799813685248, .argE)]⟩
private def exprState134 : LState := ⟨[(.argsMore, 1, 2251799813685376), (.try3, 3, 7900153717455745)], [], [(7, 161), (51, 137)], [], 2251799813685376, []⟩
private def exprState135 : LState := ⟨[(.assignsMore, 3, 7900153717455745)], [], [], [], 0, [(7900153717455745, .assignsMore)]⟩
private def exprState136 : LState := ⟨[(.bracketed, 2, 7900153717455745), (.argsMore, 1, 2251799813685760)], [], [(9, 162), (51, 137)], [], 2251799813685760, []⟩
private def exprClos11 : List (Nat × Nat) := [(5, 2251825046610816), (6, 2251799813685888), (7, 2251799813685888), (10, 2251799813685888), (11, 2251825046610816), (13, 2251799813685888), (20, 2251825046610816), (21, 2251825046610816)]
private def exprGotos43 : List (Nat × Nat) := [(5, 22), (6, 101), (7, 163), (10, 100), (11, 99), (13, 102), (20, 19), (21, 20)]
private def exprState137 : LState := ⟨[(.argsMore, 2, 2251799813685888)], exprClos11, exprShifts5, exprGotos43, 544095583880574, []⟩
private def exprState138 : LState := ⟨[(.genSet, 4, 7900153717455745), (.genGet, 4, 7900153717455745)], [], [(54, 164)], [], 18014398509481984, [(7900153717455745, .genGet)]⟩
private def exprState139 : LState := ⟨[(.fcnE, 2, 7900153717455745), (.fcnB, 2, 7900153717455745)], [(9, 2251799813689344), (10, 2251799813689344), (22, 2251799813689344)], [(2, 130), (3, 131), (5, 129)], [(9, 165), (10, 51), (22, 50)], 44, [(2251799813689344, .empty)]⟩
private def exprState140 : LState := ⟨[(.paramsMore, 3, 2251799813691520)], [], [], [], 0, [(2251799813691520, .paramsMore)]⟩
private def exprState141 : LState := ⟨[(.paramName, 3, 7900153717455745)], [], [], [], 0, [(7900153717455745, .paramName)]⟩
private def exprState142 : LState := ⟨[(.paramStr, 3, 7900153717455745)], [], [], [], 0, [(7900153717455745, .paramStr)]⟩
private def exprState143 : LState := ⟨[(.paramRaw, 3, 7900153717455745)], [], [], [], 0, [(7900153717455745, .paramRaw)]⟩
private def exprState144 : LState := ⟨[(.call, 4, 7900153717455745)], [], [], [], 0, [(7900153717455745, .call)]⟩
private def exprKernel41 : List (Pr × Nat × Nat) := [(.get, 4, 7900153717455745), (.to1, 4, 7900153717455745), (.to2, 4, 7900153717455745), (.to3, 4, 7900153717455745)]
private def exprState145 : LState := ⟨exprKernel41, [], [(49, 167), (54, 166)], [], 18577348462903296, [(7900153717455745, .get)]⟩
private def exprGotos44 : List (Nat × Nat) := [(5, 22), (11, 168), (20, 19), (21, 20)]
private def exprState146 : LState := ⟨[(.to5, 4, 7900153717455745)], exprClos2, exprShifts0, exprGotos44, 544061224141950, []⟩
private def exprGotos45 : List (Nat × Nat) := [(5, 22), (11, 169), (20, 19), (21, 20)]
private def exprState147 : LState := ⟨[(.if1, 4, 7900153717455745), (.if2, 4, 7900153717455745)], exprClos2, exprShifts0, exprGotos45, 544061224141950, []⟩
private def exprGotos46 : List (Nat × Nat) := [(5, 22), (11, 170), (20, 19), (21, 20)]
private def exprState148 : LState := ⟨[(.while_, 4, 7900153717455745)], exprClos2, exprShifts0, exprGotos46, 544061224141950, []⟩
private def exprGotos47 : List (Nat × Nat) := [(5, 22), (11, 171), (20, 19), (21, 20)]
private def exprState149 : LState := ⟨[(.doUntil, 4, 7900153717455745)], exprClos3, exprShifts0, exprGotos47, 544061224141950, []⟩
private def exprClos12 : List (Nat × Nat) := [(5, 4503624860295424), (11, 4503624860295424), (20, 6755424673980672), (21, 6755424673980672)]
private def exprGotos48 : List (Nat × Nat) := [(5, 22), (11, 172), (20, 19), (21, 20)]
private def exprState150 : LState := ⟨[(.for_, 4, 7900153717455745)], exprClos12, exprShifts0, exprGotos48, 544061224141950, []⟩
private def exprState151 : LState := ⟨[(.pairName, 4, 7900153717455745)], [(10, 128)], [(2, 130), (3, 131), (5, 129)], [(10, 173)], 44, []⟩
private def exprState152 : LState := ⟨[(.pairStr, 4, 7900153717455745)], [(10, 128)], [(2, 130), (3, 131), (5, 129)], [(10, 174)], 44, []⟩
private def exprState153 : LState := ⟨[(.pairRaw, 4, 7900153717455745)], [(10, 128)], [(2, 130), (3, 131), (5, 129)], [(10, 175)], 44, []⟩
private def exprGotos49 : List (Nat × Nat) := [(5, 22), (11, 176), (20, 19), (21, 20)]
private def exprState154 : LState := ⟨[(.each1, 4, 7900153717455745)], exprClos2, exprShifts0, exprGotos49, 544061224141950, []⟩
private def exprState155 : LState := ⟨[(.each2, 4, 7900153717455745)], [(10, 128)], [(2, 130), (3, 131), (5, 129)], [(10, 177)], 44, []⟩
private def exprState156 : LState := ⟨[(.cast1, 4, 7900153717455745)], [], [(10, 178)], [], 1024, []⟩
private def exprState157 : LState := ⟨[(.cast2, 4, 7900153717455745)], [(10, 128)], [(2, 130), (3, 131), (5, 129)], [(10, 179)], 44, []⟩
private def exprGotos50 : List (Nat × Nat) := [(5, 22), (11, 180), (20, 19), (21, 20)]
private def exprState158 : LState := ⟨[(.ifnn1, 4, 7900153717455745), (.ifnn2, 4, 7900153717455745)], exprClos2, exprShifts0, exprGotos50, 544061224141950, []⟩
private def exprState159 : LState := ⟨[(.unpack1, 4, 7900153717455745), (.unpack2, 4, 7900153717455745)], [(9, 2251799813685376), (10, 2251799813685376), (22, 2251799813685376)], [(2, 130), (3, 131), (5, 129)], [(9, 181), (10, 51), (22, 50)], 44, [(2251799813685376, .empty)]⟩
private def exprGotos51 : List (Nat × Nat) := [(5, 22), (11, 182), (20, 19), (21, 20)]
private def exprState160 : LState := ⟨[(.group, 3, 7900153717455745), (.try2, 4, 7900153717455745)], exprClos2, exprShifts0, exprGotos51, 544061224141950, [(7900153717439361, .group)]⟩
private def exprGotos52 : List (Nat × Nat) := [(5, 22), (11, 183), (20, 19), (21, 20)]
private def exprState161 : LState := ⟨[(.try3, 4, 7900153717455745)], exprClos2, exprShifts0, exprGotos52, 544061224141950, []⟩
private def exprState162 : LState := ⟨[(.bracketed, 3, 7900153717455745)], [], [], [], 0, [(7900153717455745, .bracketed)]⟩
private def exprState163 : LState := ⟨[(.argsMore, 3, 2251799813685888)], [], [], [], 0, [(2251799813685888, .argsMore)]⟩
private def exprGotos53 : List (Nat × Nat) := [(5, 22), (11, 184), (20, 19), (21, 20)]
private def exprState164 : LState := ⟨[(.genSet, 5, 7900153717455745)], exprClos2, exprShifts0, exprGotos53, 544061224141950, []⟩
private def exprState165 : LState := ⟨[(.paramsMore, 1, 2251799813689344), (.fcnE, 3, 7900153717455745), (.fcnB, 3, 7900153717455745)], [(12, 128)], [(12, 185), (51, 109)], [(12, 186)], 2251799813689344, []⟩
private def exprGotos54 : List (Nat × Nat) := [(5, 22), (11, 187), (20, 19), (21, 20)]
private def exprState166 : LState := ⟨[(.to1, 5, 7900153717455745)], exprClos2, exprShifts0, exprGotos54, 544061224141950, []⟩
private def exprGotos55 : List (Nat × Nat) := [(5, 22), (6, 101), (7, 188), (10, 100), (11, 99), (13, 102), (20, 19), (21, 20)]
private def exprState167 : LState := ⟨[(.to2, 5, 7900153717455745), (.to3, 5, 7900153717455745)], exprClos8, exprShifts5, exprGotos55, 544095583880574, []⟩
private def exprKernel42 : List (Pr × Nat × Nat) := [((.bin .or), 1, 7900153717455745), ((.bin .xor), 1, 7900153717455745), ((.bin .and), 1, 7900153717455745), ((.bin .eq), 1, 7900153717455745), ((.bin .ne), 1, 7900153717455745), ((.bin .lt), 1, 7900153717455745), ((.bin .le), 1, 7900153717455745), ((.bin .gt), 1, 7900153717455745), ((.bin .ge), 1, 7900153717455745), ((.bin .bitor), 1, 7900153717455745), ((.bin .bitxor), 1, 7900153717455745), ((.bin .bitand), 1, 7900153717455745), ((.bin .plus), 1, 7900153717455745), ((.bin .minus), 1, 7900153717455745), ((.bin .times), 1, 7900153717455745), ((.bin .fdiv), 1, 7900153717455745), ((.bin .idiv), 1, 7900153717455745), ((.bin .mod), 1, 7900153717455745), ((.bin .rem), 1, 7900153717455745), ((.bin .pow), 1, 7900153717455745), (.genSet, 1, 7900153717455745), (.genGet, 1, 7900153717455745), (.to5, 5, 7900153717455745)]
private def exprState168 : LState := ⟨exprKernel42, [], exprShifts1, [], 25232924928, [(7900128484530817, .to5)]⟩
private def exprKernel43 : List (Pr × Nat × Nat) := [((.bin .or), 1, 7900153717455745), ((.bin .xor), 1, 7900153717455745), ((.bin .and), 1, 7900153717455745), ((.bin .eq), 1, 7900153717455745), ((.bin .ne), 1, 7900153717455745), ((.bin .lt), 1, 7900153717455745), ((.bin .le), 1, 7900153717455745), ((.bin .gt), 1, 7900153717455745), ((.bin .ge), 1, 7900153717455745), ((.bin .bitor), 1, 7900153717455745), ((.bin .bitxor), 1, 7900153717455745), ((.bin .bitand), 1, 7900153717455745), ((.bin .plus), 1, 7900153717455745), ((.bin .minus), 1, 7900153717455745), ((.bin .times), 1, 7900153717455745), ((.bin .fdiv), 1, 7900153717455745), ((.bin .idiv), 1, 7900153717455745), ((.bin .mod), 1, 7900153717455745), ((.bin .rem), 1, 7900153717455745), ((.bin .pow), 1, 7900153717455745), (.if1, 5, 7900153717455745), (.if2, 5, 7900153717455745), (.genSet, 1, 7900153717455745), (.genGet, 1, 7900153717455745)]
private def exprShifts14 : List (Nat × Nat) := [(8, 47), (13, 39), (14, 40), (15, 41), (16, 42), (17, 44), (18, 45), (19, 46), (20, 30), (21, 31), (22, 32), (23, 33), (24, 34), (25, 35), (26, 29), (27, 27), (28, 28), (30, 38), (31, 36), (32, 37), (34, 43), (37, 189)]
private def exprState169 : LState := ⟨exprKernel43, [], exprShifts14, [], 162671878400, [(7899991045577345, .if1)]⟩
private def exprKernel44 : List (Pr × Nat × Nat) := [((.bin .or), 1, 7900153717455745), ((.bin .xor), 1, 7900153717455745), ((.bin .and), 1, 7900153717455745), ((.bin .eq), 1, 7900153717455745), ((.bin .ne), 1, 7900153717455745), ((.bin .lt), 1, 7900153717455745), ((.bin .le), 1, 7900153717455745), ((.bin .gt), 1, 7900153717455745), ((.bin .ge), 1, 7900153717455745), ((.bin .bitor), 1, 7900153717455745), ((.bin .bitxor), 1, 7900153717455745), ((.bin .bitand), 1, 7900153717455745), ((.bin .plus), 1, 7900153717455745), ((.bin .minus), 1, 7900153717455745), ((.bin .times), 1, 7900153717455745), ((.bin .fdiv), 1, 7900153717455745), ((.bin .idiv), 1, 7900153717455745), ((.bin .mod), 1, 7900153717455745), ((.bin .rem), 1, 7900153717455745), ((.bin .pow), 1, 7900153717455745), (.while_, 5, 7900153717455745), (.genSet, 1, 7900153717455745), (.genGet, 1, 7900153717455745)]
private def exprState170 : LState := ⟨exprKernel44, [], exprShifts1, [], 25232924928, [(7900128484530817, .while_)]⟩
private def exprKernel45 : List (Pr × Nat × Nat) := [((.bin .or), 1, 25232925056), ((.bin .xor), 1, 25232925056), ((.bin .and), 1, 25232925056), ((.bin .eq), 1, 25232925056), ((.bin .ne), 1, 25232925056), ((.bin .lt), 1, 25232925056), ((.bin .le), 1, 25232925056), ((.bin .gt), 1, 25232925056), ((.bin .ge), 1, 25232925056), ((.bin .bitor), 1, 25232925056), ((.bin .bitxor), 1, 25232925056), ((.bin .bitand), 1, 25232925056), ((.bin .plus), 1, 25232925056), ((.bin .minus), 1, 25232925056), ((.bin .times), 1, 25232925056), ((.bin .fdiv), 1, 25232925056), ((.bin .idiv), 1, 25232925056), ((.bin .mod), 1, 25232925056), ((.bin .rem), 1, 25232925056), ((.bin .pow), 1, 25232925056), (.doUntil, 5, 7900153717455745), (.genSet, 1, 25232925056), (.genGet, 1, 25232925056)]
private def exprShifts15 : List (Nat × Nat) := [(7, 190), (8, 47), (13, 39), (14, 40), (15, 41), (16, 42), (17, 44), (18, 45), (19, 46), (20, 30), (21, 31), (22, 32), (23, 33), (24, 34), (25, 35), (26, 29), (27, 27), (28, 28), (30, 38), (31, 36), (32, 37), (34, 43)]
private def exprState171 : LState := ⟨exprKernel45, [], exprShifts15, [], 25232925056, []⟩
private def exprKernel46 : List (Pr × Nat × Nat) := [((.bin .or), 1, 4503624860295424), ((.bin .xor), 1, 4503624860295424), ((.bin .and), 1, 4503624860295424), ((.bin .eq), 1, 4503624860295424), ((.bin .ne), 1, 4503624860295424), ((.bin .lt), 1, 4503624860295424), ((.bin .le), 1, 4503624860295424), ((.bin .gt), 1, 4503624860295424), ((.bin .ge), 1, 4503624860295424), ((.bin .bitor), 1, 4503624860295424), ((.bin .bitxor), 1, 4503624860295424), ((.bin .bitand), 1, 4503624860295424), ((.bin .plus), 1, 4503624860295424), ((.bin .minus), 1, 4503624860295424), ((.bin .times), 1, 4503624860295424), ((.bin .fdiv), 1, 4503624860295424), ((.bin .idiv), 1, 4503624860295424), ((.bin .mod), 1, 4503624860295424), ((.bin .rem), 1, 4503624860295424), ((.bin .pow), 1, 4503624860295424), (.for_, 5, 7900153717455745), (.genSet, 1, 4503624860295424), (.genGet, 1, 4503624860295424)]
private def exprShifts16 : List (Nat × Nat) := [(8, 47), (13, 39), (14, 40), (15, 41), (16, 42), (17, 44), (18, 45), (19, 46), (20, 30), (21, 31), (22, 32), (23, 33), (24, 34), (25, 35), (26, 29), (27, 27), (28, 28), (30, 38), (31, 36), (32, 37), (34, 43), (52, 191)]
private def exprState172 : LState := ⟨exprKernel46, [], exprShifts16, [], 4503624860295424, []⟩
private def exprState173 : LState := ⟨[(.pairName, 5, 7900153717455745)], [], [(7, 192)], [], 128, []⟩
private def exprState174 : LState := ⟨[(.pairStr, 5, 7900153717455745)], [], [(7, 193)], [], 128, []⟩
private def exprState175 : LState := ⟨[(.pairRaw, 5, 7900153717455745)], [], [(7, 194)], [], 128, []⟩
private def exprKernel47 : List (Pr × Nat × Nat) := [((.bin .or), 1, 7900153717455745), ((.bin .xor), 1, 7900153717455745), ((.bin .and), 1, 7900153717455745), ((.bin .eq), 1, 7900153717455745), ((.bin .ne), 1, 7900153717455745), ((.bin .lt), 1, 7900153717455745), ((.bin .le), 1, 7900153717455745), ((.bin .gt), 1, 7900153717455745), ((.bin .ge), 1, 7900153717455745), ((.bin .bitor), 1, 7900153717455745), ((.bin .bitxor), 1, 7900153717455745), ((.bin .bitand), 1, 7900153717455745), ((.bin .plus), 1, 7900153717455745), ((.bin .minus), 1, 7900153717455745), ((.bin .times), 1, 7900153717455745), ((.bin .fdiv), 1, 7900153717455745), ((.bin .idiv), 1, 7900153717455745), ((.bin .mod), 1, 7900153717455745), ((.bin .rem), 1, 7900153717455745), ((.bin .pow), 1, 7900153717455745), (.each1, 5, 7900153717455745), (.genSet, 1, 7900153717455745), (.genGet, 1, 7900153717455745)]
private def exprState176 : LState := ⟨exprKernel47, [], exprShifts1, [], 25232924928, [(7900128484530817, .each1)]⟩
private def exprState177 : LState := ⟨[(.each2, 5, 7900153717455745)], [], [(7, 195)], [], 128, []⟩
private def exprState178 : LState := ⟨[(.cast1, 5, 7900153717455745)], [(18, 17592186046464), (19, 17592186046464)], [(44, 196)], [(18, 197), (19, 198)], 17592186044416, []⟩
private def exprState179 : LState := ⟨[(.cast2, 5, 7900153717455745)], [], [(7, 199)], [], 128, []⟩
private def exprKernel48 : List (Pr × Nat × Nat) := [((.bin .or), 1, 7900153717455745), ((.bin .xor), 1, 7900153717455745), ((.bin .and), 1, 7900153717455745), ((.bin .eq), 1, 7900153717455745), ((.bin .ne), 1, 7900153717455745), ((.bin .lt), 1, 7900153717455745), ((.bin .le), 1, 7900153717455745), ((.bin .gt), 1, 7900153717455745), ((.bin .ge), 1, 7900153717455745), ((.bin .bitor), 1, 7900153717455745), ((.bin .bitxor), 1, 7900153717455745), ((.bin .bitand), 1, 7900153717455745), ((.bin .plus), 1, 7900153717455745), ((.bin .minus), 1, 7900153717455745), ((.bin .times), 1, 7900153717455745), ((.bin .fdiv), 1, 7900153717455745), ((.bin .idiv), 1, 7900153717455745), ((.bin .mod), 1, 7900153717455745), ((.bin .rem), 1, 7900153717455745), ((.bin .pow), 1, 7900153717455745), (.ifnn1, 5, 7900153717455745), (.ifnn2, 5, 7900153717455745), (.genSet, 1, 7900153717455745), (.genGet, 1, 7900153717455745)]
private def exprShifts17 : List (Nat × Nat) := [(8, 47), (13, 39), (14, 40), (15, 41), (16, 42), (17, 44), (18, 45), (19, 46), (20, 30), (21, 31), (22, 32), (23, 33), (24, 34), (25, 35), (26, 29), (27, 27), (28, 28), (30, 38), (31, 36), (32, 37), (34, 43), (37, 200)]
private def exprState180 : LState := ⟨exprKernel48, [], exprShifts17, [], 162671878400, [(7899991045577345, .ifnn1)]⟩
private def exprState181 : LState := ⟨[(.paramsMore, 1, 2251799813685376), (.unpack1, 5, 7900153717455745), (.unpack2, 5, 7900153717455745)], [], [(7, 201), (51, 109)], [], 2251799813685376, []⟩
private def exprKernel49 : List (Pr × Nat × Nat) := [((.bin .or), 1, 7900153717455745), ((.bin .xor), 1, 7900153717455745), ((.bin .and), 1, 7900153717455745), ((.bin .eq), 1, 7900153717455745), ((.bin .ne), 1, 7900153717455745), ((.bin .lt), 1, 7900153717455745), ((.bin .le), 1, 7900153717455745), ((.bin .gt), 1, 7900153717455745), ((.bin .ge), 1, 7900153717455745), ((.bin .bitor), 1, 7900153717455745), ((.bin .bitxor), 1, 7900153717455745), ((.bin .bitand), 1, 7900153717455745), ((.bin .plus), 1, 7900153717455745), ((.bin .minus), 1, 7900153717455745), ((.bin .times), 1, 7900153717455745), ((.bin .fdiv), 1, 7900153717455745), ((.bin .idiv), 1, 7900153717455745), ((.bin .mod), 1, 7900153717455745), ((.bin .rem), 1, 7900153717455745), ((.bin .pow), 1, 7900153717455745), (.try2, 5, 7900153717455745), (.genSet, 1, 7900153717455745), (.genGet, 1, 7900153717455745)]
private def exprState182 : LState := ⟨exprKernel49, [], exprShifts1, [], 25232924928, [(7900128484530817, .try2)]⟩
private def exprKernel50 : List (Pr × Nat × Nat) := [((.bin .or), 1, 7900153717455745), ((.bin .xor), 1, 7900153717455745), ((.bin .and), 1, 7900153717455745), ((.bin .eq), 1, 7900153717455745), ((.bin .ne), 1, 7900153717455745), ((.bin .lt), 1, 7900153717455745), ((.bin .le), 1, 7900153717455745), ((.bin .gt), 1, 7900153717455745), ((.bin .ge), 1, 7900153717455745), ((.bin .bitor), 1, 7900153717455745), ((.bin .bitxor), 1, 7900153717455745), ((.bin .bitand), 1, 7900153717455745), ((.bin .plus), 1, 7900153717455745), ((.bin .minus), 1, 7900153717455745), ((.bin .times), 1, 7900153717455745), ((.bin .fdiv), 1, 7900153717455745), ((.bin .idiv), 1, 7900153717455745), ((.bin .mod), 1, 7900153717455745), ((.bin .rem), 1, 7900153717455745), ((.bin .pow), 1, 7900153717455745), (.try3, 5, 7900153717455745), (.genSet, 1, 7900153717455745), (.genGet, 1, 7900153717455745)]
private def exprState183 : LState := ⟨exprKernel50, [], exprShifts1, [], 25232924928, [(7900128484530817, .try3)]⟩
private def exprKernel51 : List (Pr × Nat × Nat) := [((.bin .or), 1, 7900153717455745), ((.bin .xor), 1, 7900153717455745), ((.bin .and), 1, 7900153717455745), ((.bin .eq), 1, 7900153717455745), ((.bin .ne), 1, 7900153717455745), ((.bin .lt), 1, 7900153717455745), ((.bin .le), 1, 7900153717455745), ((.bin .gt), 1, 7900153717455745), ((.bin .ge), 1, 7900153717455745), ((.bin .bitor), 1, 7900153717455745), ((.bin .bitxor), 1, 7900153717455745), ((.bin .bitand), 1, 7900153717455745), ((.bin .plus), 1, 7900153717455745), ((.bin .minus), 1, 7900153717455745), ((.bin .times), 1, 7900153717455745), ((.bin .fdiv), 1, 7900153717455745), ((.bin .idiv), 1, 7900153717455745), ((.bin .mod), 1, 7900153717455745), ((.bin .rem), 1, 7900153717455745), ((.bin .pow), 1, 7900153717455745), (.genSet, 1, 7900153717455745), (.genSet, 6, 7900153717455745), (.genGet, 1, 7900153717455745)]
private def exprState184 : LState := ⟨exprKernel51, [], exprShifts1, [], 25232924928, [(7900128484530817, .genSet)]⟩
private def exprGotos56 : List (Nat × Nat) := [(5, 22), (11, 202), (20, 19), (21, 20)]
private def exprState185 : LState := ⟨[(.rettype, 1, 128)], exprClos3, exprShifts0, exprGotos56, 544061224141950, []⟩
private def exprState186 : LState := ⟨[(.fcnE, 4, 7900153717455745), (.fcnB, 4, 7900153717455745)], [], [(7, 203)], [], 128, []⟩
private def exprKernel52 : List (Pr × Nat × Nat) := [((.bin .or), 1, 7900153717455745), ((.bin .xor), 1, 7900153717455745), ((.bin .and), 1, 7900153717455745), ((.bin .eq), 1, 7900153717455745), ((.bin .ne), 1, 7900153717455745), ((.bin .lt), 1, 7900153717455745), ((.bin .le), 1, 7900153717455745), ((.bin .gt), 1, 7900153717455745), ((.bin .ge), 1, 7900153717455745), ((.bin .bitor), 1, 7900153717455745), ((.bin .bitxor), 1, 7900153717455745), ((.bin .bitand), 1, 7900153717455745), ((.bin .plus), 1, 7900153717455745), ((.bin .minus), 1, 7900153717455745), ((.bin .times), 1, 7900153717455745), ((.bin .fdiv), 1, 7900153717455745), ((.bin .idiv), 1, 7900153717455745), ((.bin .mod), 1, 7900153717455745), ((.bin .rem), 1, 7900153717455745), ((.bin .pow), 1, 7900153717455745), (.genSet, 1, 7900153717455745), (.genGet, 1, 7900153717455745), (.to1, 6, 7900153717455745)]
private def exprState187 : LState := ⟨exprKernel52, [], exprShifts1, [], 25232924928, [(7900128484530817, .to1)]⟩
private def exprState188 : LState := ⟨[(.to2, 6, 7900153717455745), (.to3, 6, 7900153717455745)], [], [(50, 204)], [], 1125899906842624, [(6774253810613121, .to2)]⟩
private def exprGotos57 : List (Nat × Nat) := [(5, 22), (11, 205), (20, 19), (21, 20)]
private def exprState189 : LState := ⟨[(.if2, 6, 7900153717455745)], exprClos2, exprShifts0, exprGotos57, 544061224141950, []⟩
private def exprState190 : LState := ⟨[(.doUntil, 6, 7900153717455745)], [], [], [], 0, [(7900153717455745, .doUntil)]⟩
private def exprState191 : LState := ⟨[(.for_, 6, 7900153717455745)], [(20, 2251799813685376), (21, 2251799813685376)], [(5, 75)], [(20, 19), (21, 206)], 32, []⟩
private def exprGotos58 : List (Nat × Nat) := [(5, 22), (11, 207), (20, 19), (21, 20)]
private def exprState192 : LState := ⟨[(.pairName, 6, 7900153717455745)], exprClos2, exprShifts0, exprGotos58, 544061224141950, []⟩
private def exprGotos59 : List (Nat × Nat) := [(5, 22), (11, 208), (20, 19), (21, 20)]
private def exprState193 : LState := ⟨[(.pairStr, 6, 7900153717455745)], exprClos2, exprShifts0, exprGotos59, 544061224141950, []⟩
private def exprGotos60 : List (Nat × Nat) := [(5, 22), (11, 209), (20, 19), (21, 20)]
private def exprState194 : LState := ⟨[(.pairRaw, 6, 7900153717455745)], exprClos2, exprShifts0, exprGotos60, 544061224141950, []⟩
private def exprGotos61 : List (Nat × Nat) := [(5, 22), (11, 210), (20, 19), (21, 20)]
private def exprState195 : LState := ⟨[(.each2, 6, 7900153717455745)], exprClos2, exprShifts0, exprGotos61, 544061224141950, []⟩
private def exprState196 : LState := ⟨[(.asblock, 1, 17592186046464)], [], [(6, 211)], [], 64, []⟩
private def exprState197 : LState := ⟨[(.asblocks1, 1, 17592186046464)], [], [], [], 0, [(17592186046464, .asblocks1)]⟩
private def exprState198 : LState := ⟨[(.asblocksMore, 1, 17592186046464), (.cast1, 6, 7900153717455745)], [(18, 17592186046464)], [(11, 213), (44, 196)], [(18, 212)], 17592186046464, []⟩
private def exprState199 : LState := ⟨[(.cast2, 6, 7900153717455745)], [], [(10, 214)], [], 1024, []⟩
private def exprGotos62 : List (Nat × Nat) := [(5, 22), (11, 215), (20, 19), (21, 20)]
private def exprState200 : LState := ⟨[(.ifnn2, 6, 7900153717455745)], exprClos2, exprShifts0, exprGotos62, 544061224141950, []⟩
private def exprGotos63 : List (Nat × Nat) := [(5, 22), (11, 216), (20, 19), (21, 20)]
private def exprState201 : LState := ⟨[(.unpack1, 6, 7900153717455745), (.unpack2, 6, 7900153717455745)], exprClos2, exprShifts0, exprGotos63, 544061224141950, []⟩
private def exprKernel53 : List (Pr × Nat × Nat) := [((.bin .or), 1, 25232925056), ((.bin .xor), 1, 25232925056), ((.bin .and), 1, 25232925056), ((.bin .eq), 1, 25232925056), ((.bin .ne), 1, 25232925056), ((.bin .lt), 1, 25232925056), ((.bin .le), 1, 25232925056), ((.bin .gt), 1, 25232925056), ((.bin .ge), 1, 25232925056), ((.bin .bitor), 1, 25232925056), ((.bin .bitxor), 1, 25232925056), ((.bin .bitand), 1, 25232925056), ((.bin .plus), 1, 25232925056), ((.bin .minus), 1, 25232925056), ((.bin .times), 1, 25232925056), ((.bin .fdiv), 1, 25232925056), ((.bin .idiv), 1, 25232925056), ((.bin .mod), 1, 25232925056), ((.bin .rem), 1, 25232925056), ((.bin .pow), 1, 25232925056), (.rettype, 2, 128), (.genSet, 1, 25232925056), (.genGet, 1, 25232925056)]
private def exprState202 : LState := ⟨exprKernel53, [], exprShifts1, [], 25232924928, [(128, .rettype)]⟩
private def exprGotos64 : List (Nat × Nat) := [(5, 218), (11, 217), (20, 19), (21, 20)]
private def exprState203 : LState := ⟨[(.fcnE, 5, 7900153717455745), (.fcnB, 5, 7900153717455745)], exprClos2, exprShifts0, exprGotos64, 544061224141950, []⟩
private def exprGotos65 : List (Nat × Nat) := [(5, 22), (11, 219), (20, 19), (21, 20)]
private def exprState204 : LState := ⟨[(.to3, 7, 7900153717455745)], exprClos2, exprShifts0, exprGotos65, 544061224141950, []⟩
private def exprKernel54 : List (Pr × Nat × Nat) := [((.bin .or), 1, 7900153717455745), ((.bin .xor), 1, 7900153717455745), ((.bin .and), 1, 7900153717455745), ((.bin .eq), 1, 7900153717455745), ((.bin .ne), 1, 7900153717455745), ((.bin .lt), 1, 7900153717455745), ((.bin .le), 1, 7900153717455745), ((.bin .gt), 1, 7900153717455745), ((.bin .ge), 1, 7900153717455745), ((.bin .bitor), 1, 7900153717455745), ((.bin .bitxor), 1, 7900153717455745), ((.bin .bitand), 1, 7900153717455745), ((.bin .plus), 1, 7900153717455745), ((.bin .minus), 1, 7900153717455745), ((.bin .times), 1, 7900153717455745), ((.bin .fdiv), 1, 7900153717455745), ((.bin .idiv), 1, 7900153717455745), ((.bin .mod), 1, 7900153717455745), ((.bin .rem), 1, 7900153717455745), ((.bin .pow), 1, 7900153717455745), (.if2, 7, 7900153717455745), (.genSet, 1, 7900153717455745), (.genGet, 1, 7900153717455745)]
private def exprState205 : LState := ⟨exprKernel54, [], exprShifts1, [], 25232924928, [(7900128484530817, .if2)]⟩
private def exprState206 : LState := ⟨[(.for_, 7, 7900153717455745), (.assignsMore, 1, 2251799813685376)], [], [(7, 220), (51, 74)], [], 2251799813685376, []⟩
private def exprKernel55 : List (Pr × Nat × Nat) := [((.bin .or), 1, 7900153717455745), ((.bin .xor), 1, 7900153717455745), ((.bin .and), 1, 7900153717455745), ((.bin .eq), 1, 7900153717455745), ((.bin .ne), 1, 7900153717455745), ((.bin .lt), 1, 7900153717455745), ((.bin .le), 1, 7900153717455745), ((.bin .gt), 1, 7900153717455745), ((.bin .ge), 1, 7900153717455745), ((.bin .bitor), 1, 7900153717455745), ((.bin .bitxor), 1, 7900153717455745), ((.bin .bitand), 1, 7900153717455745), ((.bin .plus), 1, 7900153717455745), ((.bin .minus), 1, 7900153717455745), ((.bin .times), 1, 7900153717455745), ((.bin .fdiv), 1, 7900153717455745), ((.bin .idiv), 1, 7900153717455745), ((.bin .mod), 1, 7900153717455745), ((.bin .rem), 1, 7900153717455745), ((.bin .pow), 1, 7900153717455745), (.pairName, 7, 7900153717455745), (.genSet, 1, 7900153717455745), (.genGet, 1, 7900153717455745)]
private def exprState207 : LState := ⟨exprKernel55, [], exprShifts1, [], 25232924928, [(7900128484530817, .pairName)]⟩
private def exprKernel56 : List (Pr × Nat × Nat) := [((.bin .or), 1, 7900153717455745), ((.bin .xor), 1, 7900153717455745), ((.bin .and), 1, 7900153717455745), ((.bin .eq), 1, 7900153717455745), ((.bin .ne), 1, 7900153717455745), ((.bin .lt), 1, 7900153717455745), ((.bin .le), 1, 7900153717455745), ((.bin .gt), 1, 7900153717455745), ((.bin .ge), 1, 7900153717455745), ((.bin .bitor), 1, 7900153717455745), ((.bin .bitxor), 1, 7900153717455745), ((.bin .bitand), 1, 7900153717455745), ((.bin .plus), 1, 7900153717455745), ((.bin .minus), 1, 7900153717455745), ((.bin .times), 1, 7900153717455745), ((.bin .fdiv), 1, 7900153717455745), ((.bin .idiv), 1, 7900153717455745), ((.bin .mod), 1, 7900153717455745), ((.bin .rem), 1, 7900153717455745), ((.bin .pow), 1, 7900153717455745), (.pairStr, 7, 7900153717455745), (.genSet, 1, 7900153717455745), (.genGet, 1, 7900153717455745)]
private def exprState208 : LState := ⟨exprKernel56, [], exprShifts1, [], 25232924928, [(7900128484530817, .pairStr)]⟩
private def exprKernel57 : List (Pr × Nat × Nat) := [((.bin .or), 1, 7900153717455745), ((.bin .xor), 1, 7900153717455745), ((.bin .and), 1, 7900153717455745), ((.bin .eq), 1, 7900153717455745), ((.bin .ne), 1, 7900153717455745), ((.bin .lt), 1, 7900153717455745), ((.bin .le), 1, 7900153717455745), ((.bin .gt), 1, 7900153717455745), ((.bin .ge), 1, 7900153717455745), ((.bin .bitor), 1, 7900153717455745), ((.bin .bitxor), 1, 7900153717455745), ((.bin .bitand), 1, 7900153717455745), ((.bin .plus), 1, 7900153717455745), ((.bin .minus), 1, 7900153717455745), ((.bin .times), 1, 7900153717455745), ((.bin .fdiv), 1, 7900153717455745), ((.bin .idiv), 1, 7900153717455745), ((.bin .mod), 1, 7900153717455745), ((.bin .rem), 1, 7900153717455745), ((.bin .pow), 1, 7900153717455745), (.pairRaw, 7, 7900153717455745), (.genSet, 1, 7900153717455745), (.genGet, 1, 7900153717455745)]
private def exprState209 : LState := ⟨exprKernel57, [], exprShifts1, [], 25232924928, [(7900128484530817, .pairRaw)]⟩
private def exprKernel58 : List (Pr × Nat × Nat) := [((.bin .or), 1, 7900153717455745), ((.bin .xor), 1, 7900153717455745), ((.bin .and), 1, 7900153717455745), ((.bin .eq), 1, 7900153717455745), ((.bin .ne), 1, 7900153717455745), ((.bin .lt), 1, 7900153717455745), ((.bin .le), 1, 7900153717455745), ((.bin .gt), 1, 7900153717455745), ((.bin .ge), 1, 7900153717455745), ((.bin .bitor), 1, 7900153717455745), ((.bin .bitxor), 1, 7900153717455745), ((.bin .bitand), 1, 7900153717455745), ((.bin .plus), 1, 7900153717455745), ((.bin .minus), 1, 7900153717455745), ((.bin .times), 1, 7900153717455745), ((.bin .fdiv), 1, 7900153717455745), ((.bin .idiv), 1, 7900153717455745), ((.bin .mod), 1, 7900153717455745), ((.bin .rem), 1, 7900153717455745), ((.bin .pow), 1, 7900153717455745), (.each2, 7, 7900153717455745), (.genSet, 1, 7900153717455745), (.genGet, 1, 7900153717455745)]
private def exprState210 : LState := ⟨exprKernel58, [], exprShifts1, [], 25232924928, [(7900128484530817, .each2)]⟩
private def exprState211 : LState := ⟨[(.asblock, 2, 17592186046464)], [(10, 128)], [(2, 130), (3, 131), (5, 129)], [(10, 221)], 44, []⟩
private def exprState212 : LState := ⟨[(.asblocksMore, 2, 17592186046464)], [], [], [], 0, [(17592186046464, .asblocksMore)]⟩
private def exprState213 : LState := ⟨[(.cast1, 7, 7900153717455745)], [], [], [], 0, [(7900153717455745, .cast1)]⟩
private def exprState214 : LState := ⟨[(.cast2, 7, 7900153717455745)], [(18, 17592186046464), (19, 17592186046464)], [(44, 196)], [(18, 197), (19, 222)], 17592186044416, []⟩
private def exprKernel59 : List (Pr × Nat × Nat) := [((.bin .or), 1, 7900153717455745), ((.bin .xor), 1, 7900153717455745), ((.bin .and), 1, 7900153717455745), ((.bin .eq), 1, 7900153717455745), ((.bin .ne), 1, 7900153717455745), ((.bin .lt), 1, 7900153717455745), ((.bin .le), 1, 7900153717455745), ((.bin .gt), 1, 7900153717455745), ((.bin .ge), 1, 7900153717455745), ((.bin .bitor), 1, 7900153717455745), ((.bin .bitxor), 1, 7900153717455745), ((.bin .bitand), 1, 7900153717455745), ((.bin .plus), 1, 7900153717455745), ((.bin .minus), 1, 7900153717455745), ((.bin .times), 1, 7900153717455745), ((.bin .fdiv), 1, 7900153717455745), ((.bin .idiv), 1, 7900153717455745), ((.bin .mod), 1, 7900153717455745), ((.bin .rem), 1, 7900153717455745), ((.bin .pow), 1, 7900153717455745), (.ifnn2, 7, 7900153717455745), (.genSet, 1, 7900153717455745), (.genGet, 1, 7900153717455745)]
private def exprState215 : LState := ⟨exprKernel59, [], exprShifts1, [], 25232924928, [(7900128484530817, .ifnn2)]⟩
private def exprKernel60 : List (Pr × Nat × Nat) := [((.bin .or), 1, 7900153717455745), ((.bin .xor), 1, 7900153717455745), ((.bin .and), 1, 7900153717455745), ((.bin .eq), 1, 7900153717455745), ((.bin .ne), 1, 7900153717455745), ((.bin .lt), 1, 7900153717455745), ((.bin .le), 1, 7900153717455745), ((.bin .gt), 1, 7900153717455745), ((.bin .ge), 1, 7900153717455745), ((.bin .bitor), 1, 7900153717455745), ((.bin .bitxor), 1, 7900153717455745), ((.bin .bitand), 1, 7900153717455745), ((.bin .plus), 1, 7900153717455745), ((.bin .minus), 1, 7900153717455745), ((.bin .times), 1, 7900153717455745), ((.bin .fdiv), 1, 7900153717455745), ((.bin .idiv), 1, 7900153717455745), ((.bin .mod), 1, 7900153717455745), ((.bin .rem), 1, 7900153717455745), ((.bin .pow), 1, 7900153717455745), (.unpack1, 7, 7900153717455745), (.unpack2, 7, 7900153717455745), (.genSet, 1, 7900153717455745), (.genGet, 1, 7900153717455745)]
private def exprShifts18 : List (Nat × Nat) := [(8, 47), (13, 39), (14, 40), (15, 41), (16, 42), (17, 44), (18, 45), (19, 46), (20, 30), (21, 31), (22, 32), (23, 33), (24, 34), (25, 35), (26, 29), (27, 27), (28, 28), (30, 38), (31, 36), (32, 37), (34, 43), (37, 223)]
private def exprState216 : LState := ⟨exprKernel60, [], exprShifts18, [], 162671878400, [(7899991045577345, .unpack1)]⟩
private def exprKernel61 : List (Pr × Nat × Nat) := [((.bin .or), 1, 7900153717455745), ((.bin .xor), 1, 7900153717455745), ((.bin .and), 1, 7900153717455745), ((.bin .eq), 1, 7900153717455745), ((.bin .ne), 1, 7900153717455745), ((.bin .lt), 1, 7900153717455745), ((.bin .le), 1, 7900153717455745), ((.bin .gt), 1, 7900153717455745), ((.bin .ge), 1, 7900153717455745), ((.bin .bitor), 1, 7900153717455745), ((.bin .bitxor), 1, 7900153717455745), ((.bin .bitand), 1, 7900153717455745), ((.bin .plus), 1, 7900153717455745), ((.bin .minus), 1, 7900153717455745), ((.bin .times), 1, 7900153717455745), ((.bin .fdiv), 1, 7900153717455745), ((.bin .idiv), 1, 7900153717455745), ((.bin .mod), 1, 7900153717455745), ((.bin .rem), 1, 7900153717455745), ((.bin .pow), 1, 7900153717455745), (.fcnE, 6, 7900153717455745), (.genSet, 1, 7900153717455745), (.genGet, 1, 7900153717455745)]
private def exprState217 : LState := ⟨exprKernel61, [], exprShifts1, [], 25232924928, [(7900128484530817, .fcnE)]⟩
private def exprState218 : LState := ⟨[(.fcnB, 6, 7900153717455745), (.sBlock, 1, 7900153717455745)], [], [], [], 0, [(7900153717455745, .fcnB)]⟩
private def exprKernel62 : List (Pr × Nat × Nat) := [((.bin .or), 1, 7900153717455745), ((.bin .xor), 1, 7900153717455745), ((.bin .and), 1, 7900153717455745), ((.bin .eq), 1, 7900153717455745), ((.bin .ne), 1, 7900153717455745), ((.bin .lt), 1, 7900153717455745), ((.bin .le), 1, 7900153717455745), ((.bin .gt), 1, 7900153717455745), ((.bin .ge), 1, 7900153717455745), ((.bin .bitor), 1, 7900153717455745), ((.bin .bitxor), 1, 7900153717455745), ((.bin .bitand), 1, 7900153717455745), ((.bin .plus), 1, 7900153717455745), ((.bin .minus), 1, 7900153717455745), ((.bin .times), 1, 7900153717455745), ((.bin .fdiv), 1, 7900153717455745), ((.bin .idiv), 1, 7900153717455745), ((.bin .mod), 1, 7900153717455745), ((.bin .rem), 1, 7900153717455745), ((.bin .pow), 1, 7900153717455745), (.genSet, 1, 7900153717455745), (.genGet, 1, 7900153717455745), (.to3, 8, 7900153717455745)]
private def exprState219 : LState := ⟨exprKernel62, [], exprShifts1, [], 25232924928, [(7900128484530817, .to3)]⟩
private def exprGotos66 : List (Nat × Nat) := [(5, 22), (11, 224), (20, 19), (21, 20)]
private def exprState220 : LState := ⟨[(.for_, 8, 7900153717455745)], exprClos2, exprShifts0, exprGotos66, 544061224141950, []⟩
private def exprState221 : LState := ⟨[(.asblock, 3, 17592186046464)], [], [(7, 225)], [], 128, []⟩
private def exprState222 : LState := ⟨[(.asblocksMore, 1, 17592186046464), (.cast2, 8, 7900153717455745)], [(18, 17592186046464)], [(11, 226), (44, 196)], [(18, 212)], 17592186046464, []⟩
private def exprGotos67 : List (Nat × Nat) := [(5, 22), (11, 227), (20, 19), (21, 20)]
private def exprState223 : LState := ⟨[(.unpack2, 8, 7900153717455745)], exprClos2, exprShifts0, exprGotos67, 544061224141950, []⟩
private def exprKernel63 : List (Pr × Nat × Nat) := [((.bin .or), 1, 7900153717455745), ((.bin .xor), 1, 7900153717455745), ((.bin .and), 1, 7900153717455745), ((.bin .eq), 1, 7900153717455745), ((.bin .ne), 1, 7900153717455745), ((.bin .lt), 1, 7900153717455745), ((.bin .le), 1, 7900153717455745), ((.bin .gt), 1, 7900153717455745), ((.bin .ge), 1, 7900153717455745), ((.bin .bitor), 1, 7900153717455745), ((.bin .bitxor), 1, 7900153717455745), ((.bin .bitand), 1, 7900153717455745), ((.bin .plus), 1, 7900153717455745), ((.bin .minus), 1, 7900153717455745), ((.bin .times), 1, 7900153717455745), ((.bin .fdiv), 1, 7900153717455745), ((.bin .idiv), 1, 7900153717455745), ((.bin .mod), 1, 7900153717455745), ((.bin .rem), 1, 7900153717455745), ((.bin .pow), 1, 7900153717455745), (.for_, 9, 7900153717455745), (.genSet, 1, 7900153717455745), (.genGet, 1, 7900153717455745)]
private def exprState224 : LState := ⟨exprKernel63, [], exprShifts1, [], 25232924928, [(7900128484530817, .for_)]⟩
private def exprClos13 : List (Nat × Nat) := [(5, 17617418971392), (11, 17617418971392), (20, 2269417232656640), (21, 2269417232656640)]
private def exprGotos68 : List (Nat × Nat) := [(5, 22), (11, 228), (20, 19), (21, 20)]
private def exprState225 : LState := ⟨[(.asblock, 4, 17592186046464)], exprClos13, exprShifts0, exprGotos68, 544061224141950, []⟩
private def exprState226 : LState := ⟨[(.cast2, 9, 7900153717455745)], [], [], [], 0, [(7900153717455745, .cast2)]⟩
private def exprKernel64 : List (Pr × Nat × Nat) := [((.bin .or), 1, 7900153717455745), ((.bin .xor), 1, 7900153717455745), ((.bin .and), 1, 7900153717455745), ((.bin .eq), 1, 7900153717455745), ((.bin .ne), 1, 7900153717455745), ((.bin .lt), 1, 7900153717455745), ((.bin .le), 1, 7900153717455745), ((.bin .gt), 1, 7900153717455745), ((.bin .ge), 1, 7900153717455745), ((.bin .bitor), 1, 7900153717455745), ((.bin .bitxor), 1, 7900153717455745), ((.bin .bitand), 1, 7900153717455745), ((.bin .plus), 1, 7900153717455745), ((.bin .minus), 1, 7900153717455745), ((.bin .times), 1, 7900153717455745), ((.bin .fdiv), 1, 7900153717455745), ((.bin .idiv), 1, 7900153717455745), ((.bin .mod), 1, 7900153717455745), ((.bin .rem), 1, 7900153717455745), ((.bin .pow), 1, 7900153717455745), (.unpack2, 9, 7900153717455745), (.genSet, 1, 7900153717455745), (.genGet, 1, 7900153717455745)]
private def exprState227 : LState := ⟨exprKernel64, [], exprShifts1, [], 25232924928, [(7900128484530817, .unpack2)]⟩
private def exprKernel65 : List (Pr × Nat × Nat) := [((.bin .or), 1, 17617418971392), ((.bin .xor), 1, 17617418971392), ((.bin .and), 1, 17617418971392), ((.bin .eq), 1, 17617418971392), ((.bin .ne), 1, 17617418971392), ((.bin .lt), 1, 17617418971392), ((.bin .le), 1, 17617418971392), ((.bin .gt), 1, 17617418971392), ((.bin .ge), 1, 17617418971392), ((.bin .bitor), 1, 17617418971392), ((.bin .bitxor), 1, 17617418971392), ((.bin .bitand), 1, 17617418971392), ((.bin .plus), 1, 17617418971392), ((.bin .minus), 1, 17617418971392), ((.bin .times), 1, 17617418971392), ((.bin .fdiv), 1, 17617418971392), ((.bin .idiv), 1, 17617418971392), ((.bin .mod), 1, 17617418971392), ((.bin .rem), 1, 17617418971392), ((.bin .pow), 1, 17617418971392), (.asblock, 5, 17592186046464), (.genSet, 1, 17617418971392), (.genGet, 1, 17617418971392)]
private def exprState228 : LState := ⟨exprKernel65, [], exprShifts1, [], 25232924928, [(17592186046464, .asblock)]⟩

/-- The automaton. -/
def exprAutomaton : Trie := (.node (.node (.node (.node (.node (.node (.node (.node (.leaf exprState0) (.leaf exprState128)) (.node (.leaf exprState64) (.leaf exprState192))) (.node (.node (.leaf exprState32) (.leaf exprState160)) (.node (.leaf exprState96) (.leaf exprState224)))) (.node (.node (.node (.leaf exprState16) (.leaf exprState144)) (.node (.leaf exprState80) (.leaf exprState208))) (.node (.node (.leaf exprState48) (.leaf exprState176)) (.leaf exprState112)))) (.node (.node (.node (.node (.leaf exprState8) (.leaf exprState136)) (.node (.leaf exprState72) (.leaf exprState200))) (.node (.node (.leaf exprState40) (.leaf exprState168)) (.leaf exprState104))) (.node (.node (.node (.leaf exprState24) (.leaf exprState152)) (.node (.leaf exprState88) (.leaf exprState216))) (.node (.node (.leaf exprState56) (.leaf exprState184)) (.leaf exprState120))))) (.node (.node (.node (.node (.node (.leaf exprState4) (.leaf exprState132)) (.node (.leaf exprState68) (.leaf exprState196))) (.node (.node (.leaf exprState36) (.leaf exprState164)) (.node (.leaf exprState100) (.leaf exprState228)))) (.node (.node (.node (.leaf exprState20) (.leaf exprState148)) (.node (.leaf exprState84) (.leaf exprState212))) (.node (.node (.leaf exprState52) (.leaf exprState180)) (.leaf exprState116)))) (.node (.node (.node (.node (.leaf exprState12) (.leaf exprState140)) (.node (.leaf exprState76) (.leaf exprState204))) (.node (.node (.leaf exprState44) (.leaf exprState172)) (.leaf exprState108))) (.node (.node (.node (.leaf exprState28) (.leaf exprState156)) (.node (.leaf exprState92) (.leaf exprState220))) (.node (.node (.leaf exprState60) (.leaf exprState188)) (.leaf exprState124)))))) (.node (.node (.node (.node (.node (.node (.leaf exprState2) (.leaf exprState130)) (.node (.leaf exprState66) (.leaf exprState194))) (.node (.node (.leaf exprState34) (.leaf exprState162)) (.node (.leaf exprState98) (.leaf exprState226)))) (.node (.node (.node (.leaf exprState18) (.leaf exprState146)) (.node (.leaf exprState82) (.leaf exprState210))) (.node (.node (.leaf exprState50) (.leaf exprState178)) (.leaf exprState114)))) (.node (.node (.node (.node (.leaf exprState10) (.leaf exprState138)) (.node (.leaf exprState74) (.leaf exprState202))) (.node (.node (.leaf exprState42) (.leaf exprState170)) (.leaf exprState106))) (.node (.node (.node (.leaf exprState26) (.leaf exprState154)) (.node (.leaf exprState90) (.leaf exprState218))) (.node (.node (.leaf exprState58) (.leaf exprState186)) (.leaf exprState122))))) (.node (.node (.node (.node (.node (.leaf exprState6) (.leaf exprState134)) (.node (.leaf exprState70) (.leaf exprState198))) (.node (.node (.leaf exprState38) (.leaf exprState166)) (.leaf exprState102))) (.node (.node (.node (.leaf exprState22) (.leaf exprState150)) (.node (.leaf exprState86) (.leaf exprState214))) (.node (.node (.leaf exprState54) (.leaf exprState182)) (.leaf exprState118)))) (.node (.node (.node (.node (.leaf exprState14) (.leaf exprState142)) (.node (.leaf exprState78) (.leaf exprState206))) (.node (.node (.leaf exprState46) (.leaf exprState174)) (.leaf exprState110))) (.node (.node (.node (.leaf exprState30) (.leaf exprState158)) (.node (.leaf exprState94) (.leaf exprState222))) (.node (.node (.leaf exprState62) (.leaf exprState190)) (.leaf exprState126))))))) (.node (.node (.node (.node (.node (.node (.node (.leaf exprState1) (.leaf exprState129)) (.node (.leaf exprState65) (.leaf exprState193))) (.node (.node (.leaf exprState33) (.leaf exprState161)) (.node (.leaf exprState97) (.leaf exprState225)))) (.node (.node (.node (.leaf exprState17) (.leaf exprState145)) (.node (.leaf exprState81) (.leaf exprState209))) (.node (.node (.leaf exprState49) (.leaf exprState177)) (.leaf exprState113)))) (.node (.node (.node (.node (.leaf exprState9) (.leaf exprState137)) (.node (.leaf exprState73) (.leaf exprState201))) (.node (.node (.leaf exprState41) (.leaf exprState169)) (.leaf exprState105))) (.node (.node (.node (.leaf exprState25) (.leaf exprState153)) (.node (.leaf exprState89) (.leaf exprState217))) (.node (.node (.leaf exprState57) (.leaf exprState185)) (.leaf exprState121))))) (.node (.node (.node (.node (.node (.leaf exprState5) (.leaf exprState133)) (.node (.leaf exprState69) (.leaf exprState197))) (.node (.node (.leaf exprState37) (.leaf exprState165)) (.leaf exprState101))) (.node (.node (.node (.leaf exprState21) (.leaf exprState149)) (.node (.leaf exprState85) (.leaf exprState213))) (.node (.node (.leaf exprState53) (.leaf exprState181)) (.leaf exprState117)))) (.node (.node (.node (.node (.leaf exprState13) (.leaf exprState141)) (.node (.leaf exprState77) (.leaf exprState205))) (.node (.node (.leaf exprState45) (.leaf exprState173)) (.leaf exprState109))) (.node (.node (.node (.leaf exprState29) (.leaf exprState157)) (.node (.leaf exprState93) (.leaf exprState221))) (.node (.node (.leaf exprState61) (.leaf exprState189)) (.leaf exprState125)))))) (.node (.node (.node (.node (.node (.node (.leaf exprState3) (.leaf exprState131)) (.node (.leaf exprState67) (.leaf exprState195))) (.node (.node (.leaf exprState35) (.leaf exprState163)) (.node (.leaf exprState99) (.leaf exprState227)))) (.node (.node (.node (.leaf exprState19) (.leaf exprState147)) (.node (.leaf exprState83) (.leaf exprState211))) (.node (.node (.leaf exprState51) (.leaf exprState179)) (.leaf exprState115)))) (.node (.node (.node (.node (.leaf exprState11) (.leaf exprState139)) (.node (.leaf exprState75) (.leaf exprState203))) (.node (.node (.leaf exprState43) (.leaf exprState171)) (.leaf exprState107))) (.node (.node (.node (.leaf exprState27) (.leaf exprState155)) (.node (.leaf exprState91) (.leaf exprState219))) (.node (.node (.leaf exprState59) (.leaf exprState187)) (.leaf exprState123))))) (.node (.node (.node (.node (.node (.leaf exprState7) (.leaf exprState135)) (.node (.leaf exprState71) (.leaf exprState199))) (.node (.node (.leaf exprState39) (.leaf exprState167)) (.leaf exprState103))) (.node (.node (.node (.leaf exprState23) (.leaf exprState151)) (.node (.leaf exprState87) (.leaf exprState215))) (.node (.node (.leaf exprState55) (.leaf exprState183)) (.leaf exprState119)))) (.node (.node (.node (.node (.leaf exprState15) (.leaf exprState143)) (.node (.leaf exprState79) (.leaf exprState207))) (.node (.node (.leaf exprState47) (.leaf exprState175)) (.leaf exprState111))) (.node (.node (.node (.leaf exprState31) (.leaf exprState159)) (.node (.leaf exprState95) (.leaf exprState223))) (.node (.node (.leaf exprState63) (.leaf exprState191)) (.leaf exprState127))))))))

/-- The number of its states. -/
def exprCount : Nat := 229

/-- The tokens with which the symbols may begin. -/
def exprFirst (n : Nat) : Nat := [0, 0, 0, 0, 544061224141950, 1024, 256, 544095583880574, 2795895397565822, 2251799813685292, 44, 544061224141950, 4096, 34359738368, 0, 0, 0, 0, 17592186044416, 17592186044416, 32, 32, 0, 544061224141950].getD n 0

/-- The symbols that may be empty. -/
def exprNull (n : Nat) : Nat := [0, 0, 0, 0, 0, 0, 0, 0, 1, 1, 0, 0, 0, 0, 0, 0, 0, 0, 0, 0, 0, 0, 1, 0].getD n 0

end Verif.Pretty
