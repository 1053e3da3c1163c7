import Verif.Pretty.Lalr

/-!
# The automaton of documents

Written down by a program that does what ply.yacc 3.11 does (`lr0_items`, `add_lalr_lookaheads`, `lr_parse_table`) with the productions of prettypfa.py 1456-2094.
Nothing rests on that program: `docOk` checks the automaton against the grammar.  Masks are sets of tokens, numbers of tokens and symbols are places in `Tm` and `Nt`.
-/

namespace Verif.Pretty
open Lr

private def docState0 : LState := ⟨[(.start, 0, 1)], [(0, 1), (1, 216172782113783809), (2, 216172782113783809)], [(56, 3), (57, 4)], [(0, 1), (1, 5), (2, 2)], 216172782113783808, []⟩
private def docState1 : LState := ⟨[(.start, 1, 1)], [], [], [], 0, [(1, .start)]⟩
private def docState2 : LState := ⟨[(.document, 1, 1), (.sectionsMore, 1, 216172782113783809)], [(1, 216172782113783809)], [(56, 3), (57, 4)], [(1, 6)], 216172782113783808, [(1, .document)]⟩
private def docClos0 : List (Nat × Nat) := [(3, 216172782113783809), (4, 220676381741154305), (5, 220676406974079233), (6, 216172782113783809), (11, 220676406974079233), (14, 220676381741154305), (15, 220676381741154305), (16, 220676381741154305), (17, 220676381741154305), (20, 222928206787764481), (21, 222928206787764481), (22, 220676381741154305)]
private def docShifts0 : List (Nat × Nat) := [(1, 37), (2, 38), (3, 39), (4, 15), (5, 16), (6, 20), (8, 14), (10, 13), (14, 17), (29, 19), (33, 18), (36, 24), (38, 25), (39, 26), (41, 27), (42, 28), (43, 29), (45, 30), (46, 31), (47, 32), (48, 35)]
private def docGotos0 : List (Nat × Nat) := [(3, 7), (4, 9), (5, 36), (6, 10), (11, 8), (14, 22), (15, 11), (16, 23), (17, 12), (20, 33), (21, 34), (22, 21)]
private def docState3 : LState := ⟨[(.sectionStart, 1, 216172782113783809)], docClos0, docShifts0, docGotos0, 544061224142206, [(220676381741154305, .empty)]⟩
private def docGotos1 : List (Nat × Nat) := [(3, 40), (4, 9), (5, 36), (6, 10), (11, 8), (14, 22), (15, 11), (16, 23), (17, 12), (20, 33), (21, 34), (22, 21)]
private def docState4 : LState := ⟨[(.section, 1, 216172782113783809)], docClos0, docShifts0, docGotos1, 544061224142206, [(220676381741154305, .empty)]⟩
private def docState5 : LState := ⟨[(.sections1, 1, 216172782113783809)], [], [], [], 0, [(216172782113783809, .sections1)]⟩
private def docState6 : LState := ⟨[(.sectionsMore, 2, 216172782113783809)], [], [], [], 0, [(216172782113783809, .sectionsMore)]⟩
private def docState7 : LState := ⟨[(.sectionStart, 2, 216172782113783809)], [], [], [], 0, [(216172782113783809, .sectionStart)]⟩
private def docKernel0 : List (Pr × Nat × Nat) := [(.anyExpr, 1, 216172782113783809), (.exprs1, 1, 220676381741154305), ((.bin .or), 1, 220676406974079233), ((.bin .xor), 1, 220676406974079233), ((.bin .and), 1, 220676406974079233), ((.bin .eq), 1, 220676406974079233), ((.bin .ne), 1, 220676406974079233), ((.bin .lt), 1, 220676406974079233), ((.bin .le), 1, 220676406974079233), ((.bin .gt), 1, 220676406974079233), ((.bin .ge), 1, 220676406974079233), ((.bin .bitor), 1, 220676406974079233), ((.bin .bitxor), 1, 220676406974079233), ((.bin .bitand), 1, 220676406974079233), ((.bin .plus), 1, 220676406974079233), ((.bin .minus), 1, 220676406974079233), ((.bin .times), 1, 220676406974079233), ((.bin .fdiv), 1, 220676406974079233), ((.bin .idiv), 1, 220676406974079233), ((.bin .mod), 1, 220676406974079233), ((.bin .rem), 1, 220676406974079233), ((.bin .pow), 1, 220676406974079233), (.genSet, 1, 220676406974079233), (.genGet, 1, 220676406974079233)]
private def docShifts1 : List (Nat × Nat) := [(8, 61), (13, 53), (14, 54), (15, 55), (16, 56), (17, 58), (18, 59), (19, 60), (20, 44), (21, 45), (22, 46), (23, 47), (24, 48), (25, 49), (26, 43), (27, 41), (28, 42), (30, 52), (31, 50), (32, 51), (34, 57)]
private def docState8 : LState := ⟨docKernel0, [], docShifts1, [], 25232924928, [(216172782113783809, .anyExpr), (4503599627370496, .exprs1)]⟩
private def docState9 : LState := ⟨[(.anyExprs, 1, 216172782113783809), (.exprsMore, 1, 220676381741154305), (.exprsSemi, 1, 220676381741154305)], [], [(52, 62)], [], 4503599627370496, [(216172782113783809, .anyExprs)]⟩
private def docState10 : LState := ⟨[(.anyBracketed, 1, 216172782113783809)], [], [], [], 0, [(216172782113783809, .anyBracketed)]⟩
private def docState11 : LState := ⟨[(.anyFcns, 1, 216172782113783809), (.namedMore, 1, 220676381741154305), (.namedSemi, 1, 220676381741154305)], [], [(52, 63)], [], 4503599627370496, [(216172782113783809, .anyFcns)]⟩
private def docState12 : LState := ⟨[(.anyCells, 1, 216172782113783809), (.cellsMore, 1, 220676381741154305), (.cellsSemi, 1, 220676381741154305)], [], [(52, 64)], [], 4503599627370496, [(216172782113783809, .anyCells)]⟩
private def docClos1 : List (Nat × Nat) := [(4, 4503599627372544), (5, 4503624860297472), (9, 2251799813687296), (10, 2251799813687296), (11, 4503624860297472), (20, 6755424673982720), (21, 6755424673982720), (22, 2251799813687296)]
private def docShifts2 : List (Nat × Nat) := [(1, 37), (2, 71), (3, 72), (4, 15), (5, 70), (6, 20), (10, 13), (14, 17), (29, 19), (33, 18), (36, 24), (38, 25), (39, 26), (41, 27), (42, 28), (43, 29), (45, 30), (46, 31), (47, 32), (48, 35)]
private def docGotos2 : List (Nat × Nat) := [(4, 66), (5, 36), (9, 67), (10, 69), (11, 65), (20, 33), (21, 34), (22, 68)]
private def docState13 : LState := ⟨[(.blockE, 1, 224072935831239553), (.blockP, 1, 224072935831239553)], docClos1, docShifts2, docGotos2, 544061224141950, [(2251799813687296, .empty)]⟩
private def docClos2 : List (Nat × Nat) := [(5, 2251825046610688), (6, 2251799813685760), (7, 2251799813685760), (8, 2251799813685760), (10, 2251799813685760), (11, 2251825046610688), (13, 2251799813685760), (20, 2251825046610688), (21, 2251825046610688), (22, 2251799813685760)]
private def docShifts3 : List (Nat × Nat) := [(1, 37), (2, 71), (3, 72), (4, 15), (5, 70), (6, 20), (8, 14), (10, 13), (14, 17), (29, 19), (33, 18), (35, 80), (36, 24), (38, 25), (39, 26), (41, 27), (42, 28), (43, 29), (45, 30), (46, 31), (47, 32), (48, 35)]
private def docGotos3 : List (Nat × Nat) := [(5, 36), (6, 76), (7, 79), (8, 73), (10, 75), (11, 74), (13, 77), (20, 33), (21, 34), (22, 78)]
private def docState14 : LState := ⟨[(.bracketed, 1, 224072935831239553)], docClos2, docShifts3, docGotos3, 544095583880574, [(2251799813685760, .empty)]⟩
private def docState15 : LState := ⟨[(.repl, 1, 224072935831239553)], [], [], [], 0, [(224072935831239553, .repl)]⟩
private def docKernel1 : List (Pr × Nat × Nat) := [(.call, 1, 220676406974079233), (.namedE, 1, 220676381741154305), (.namedB, 1, 220676381741154305), (.cellBlock, 1, 220676381741154305), (.cellBracketed, 1, 220676381741154305), (.cellNumber, 1, 220676381741154305), (.cellStr, 1, 220676381741154305), (.cellRaw, 1, 220676381741154305), (.cellName, 1, 220676381741154305), (.cellRepl, 1, 220676381741154305), (.assignment, 1, 222928206787764481), (.get, 1, 220676406974079233), (.to1, 1, 220676406974079233), (.to2, 1, 220676406974079233), (.to3, 1, 220676406974079233), (.to4, 1, 220676406974079233), (.to5, 1, 220676406974079233), (.enumSym, 1, 220676406974079233), (.sName, 1, 220676406974079233)]
private def docShifts4 : List (Nat × Nat) := [(6, 81), (8, 83), (49, 84), (54, 82), (55, 85)]
private def docState16 : LState := ⟨docKernel1, [], docShifts4, [], 54606145481867584, [(220676406974078977, .sName)]⟩
private def docClos3 : List (Nat × Nat) := [(5, 224072935831239553), (11, 224072935831239553), (20, 224072935831239553), (21, 224072935831239553)]
private def docShifts5 : List (Nat × Nat) := [(1, 37), (2, 38), (3, 39), (4, 15), (5, 86), (6, 20), (10, 13), (14, 17), (29, 19), (33, 18), (36, 24), (38, 25), (39, 26), (41, 27), (42, 28), (43, 29), (45, 30), (46, 31), (47, 32), (48, 35)]
private def docGotos4 : List (Nat × Nat) := [(5, 36), (11, 87), (20, 33), (21, 34)]
private def docState17 : LState := ⟨[(.uminus, 1, 224072935831239553)], docClos3, docShifts5, docGotos4, 544061224141950, []⟩
private def docGotos5 : List (Nat × Nat) := [(5, 36), (11, 88), (20, 33), (21, 34)]
private def docState18 : LState := ⟨[(.bitnot, 1, 224072935831239553)], docClos3, docShifts5, docGotos5, 544061224141950, []⟩
private def docGotos6 : List (Nat × Nat) := [(5, 36), (11, 89), (20, 33), (21, 34)]
private def docState19 : LState := ⟨[(.not, 1, 224072935831239553)], docClos3, docShifts5, docGotos6, 544061224141950, []⟩
private def docClos4 : List (Nat × Nat) := [(5, 25232925056), (11, 25232925056), (20, 2251825046610304), (21, 2251825046610304)]
private def docGotos7 : List (Nat × Nat) := [(5, 36), (11, 90), (20, 33), (21, 34)]
private def docState20 : LState := ⟨[(.group, 1, 224072935831239553)], docClos4, docShifts5, docGotos7, 544061224141950, []⟩
private def docState21 : LState := ⟨[(.named0, 1, 220676381741154305)], [], [], [], 0, [(220676381741154305, .named0)]⟩
private def docState22 : LState := ⟨[(.named1, 1, 220676381741154305)], [], [], [], 0, [(220676381741154305, .named1)]⟩
private def docState23 : LState := ⟨[(.cells1, 1, 220676381741154305)], [], [], [], 0, [(220676381741154305, .cells1)]⟩
private def docState24 : LState := ⟨[(.if1, 1, 224072935831239553), (.if2, 1, 224072935831239553)], [], [(6, 91)], [], 64, []⟩
private def docState25 : LState := ⟨[(.while_, 1, 224072935831239553)], [], [(6, 92)], [], 64, []⟩
private def docClos5 : List (Nat × Nat) := [(5, 1124744552704), (11, 1124744552704), (20, 2252924558237952), (21, 2252924558237952)]
private def docGotos8 : List (Nat × Nat) := [(5, 36), (11, 93), (20, 33), (21, 34)]
private def docState26 : LState := ⟨[(.doUntil, 1, 224072935831239553)], docClos5, docShifts5, docGotos8, 544061224141950, []⟩
private def docState27 : LState := ⟨[(.for_, 1, 224072935831239553)], [], [(6, 94)], [], 64, []⟩
private def docKernel2 : List (Pr × Nat × Nat) := [(.each1, 1, 224072935831239553), (.each2, 1, 224072935831239553), (.pairStr, 1, 224072935831239553), (.pairRaw, 1, 224072935831239553), (.pairName, 1, 224072935831239553)]
private def docState28 : LState := ⟨docKernel2, [], [(6, 95)], [], 64, []⟩
private def docState29 : LState := ⟨[(.cast1, 1, 224072935831239553), (.cast2, 1, 224072935831239553)], [], [(6, 96)], [], 64, []⟩
private def docState30 : LState := ⟨[(.ifnn1, 1, 224072935831239553), (.ifnn2, 1, 224072935831239553)], [], [(6, 97)], [], 64, []⟩
private def docState31 : LState := ⟨[(.unpack1, 1, 224072935831239553), (.unpack2, 1, 224072935831239553)], [], [(6, 98)], [], 64, []⟩
private def docShifts6 : List (Nat × Nat) := [(1, 37), (2, 38), (3, 39), (4, 15), (5, 86), (6, 100), (10, 13), (14, 17), (29, 19), (33, 18), (36, 24), (38, 25), (39, 26), (41, 27), (42, 28), (43, 29), (45, 30), (46, 31), (47, 32), (48, 35)]
private def docGotos9 : List (Nat × Nat) := [(5, 36), (11, 99), (20, 33), (21, 34)]
private def docState32 : LState := ⟨[(.try1, 1, 224072935831239553), (.try2, 1, 224072935831239553), (.try3, 1, 224072935831239553)], docClos3, docShifts6, docGotos9, 544061224141950, []⟩
private def docState33 : LState := ⟨[(.assigns1, 1, 224072935831239553)], [], [], [], 0, [(224072935831239553, .assigns1)]⟩
private def docState34 : LState := ⟨[(.assignsMore, 1, 224072935831239553), (.set_, 1, 224072935831239553)], [], [(51, 101)], [], 2251799813685248, [(221821136017554305, .set_)]⟩
private def docState35 : LState := ⟨[(.let_, 1, 224072935831239553)], [(20, 224072935831239553), (21, 224072935831239553)], [(5, 102)], [(20, 33), (21, 103)], 32, []⟩
private def docState36 : LState := ⟨[(.sBlock, 1, 224072935831239553)], [], [], [], 0, [(224072935831239553, .sBlock)]⟩
private def docState37 : LState := ⟨[(.sNumber, 1, 224072935831239553)], [], [], [], 0, [(224072935831239553, .sNumber)]⟩
private def docState38 : LState := ⟨[(.sStr, 1, 224072935831239553)], [], [], [], 0, [(224072935831239553, .sStr)]⟩
private def docState39 : LState := ⟨[(.sRaw, 1, 224072935831239553)], [], [], [], 0, [(224072935831239553, .sRaw)]⟩
private def docState40 : LState := ⟨[(.section, 2, 216172782113783809)], [], [], [], 0, [(216172782113783809, .section)]⟩
private def docGotos10 : List (Nat × Nat) := [(5, 36), (11, 104), (20, 33), (21, 34)]
private def docState41 : LState := ⟨[((.bin .or), 2, 224072935831239553)], docClos3, docShifts5, docGotos10, 544061224141950, []⟩
private def docGotos11 : List (Nat × Nat) := [(5, 36), (11, 105), (20, 33), (21, 34)]
private def docState42 : LState := ⟨[((.bin .xor), 2, 224072935831239553)], docClos3, docShifts5, docGotos11, 544061224141950, []⟩
private def docGotos12 : List (Nat × Nat) := [(5, 36), (11, 106), (20, 33), (21, 34)]
private def docState43 : LState := ⟨[((.bin .and), 2, 224072935831239553)], docClos3, docShifts5, docGotos12, 544061224141950, []⟩
private def docGotos13 : List (Nat × Nat) := [(5, 36), (11, 107), (20, 33), (21, 34)]
private def docState44 : LState := ⟨[((.bin .eq), 2, 224072935831239553)], docClos3, docShifts5, docGotos13, 544061224141950, []⟩
private def docGotos14 : List (Nat × Nat) := [(5, 36), (11, 108), (20, 33), (21, 34)]
private def docState45 : LState := ⟨[((.bin .ne), 2, 224072935831239553)], docClos3, docShifts5, docGotos14, 544061224141950, []⟩
private def docGotos15 : List (Nat × Nat) := [(5, 36), (11, 109), (20, 33), (21, 34)]
private def docState46 : LState := ⟨[((.bin .lt), 2, 224072935831239553)], docClos3, docShifts5, docGotos15, 544061224141950, []⟩
private def docGotos16 : List (Nat × Nat) := [(5, 36), (11, 110), (20, 33), (21, 34)]
private def docState47 : LState := ⟨[((.bin .le), 2, 224072935831239553)], docClos3, docShifts5, docGotos16, 544061224141950, []⟩
private def docGotos17 : List (Nat × Nat) := [(5, 36), (11, 111), (20, 33), (21, 34)]
private def docState48 : LState := ⟨[((.bin .gt), 2, 224072935831239553)], docClos3, docShifts5, docGotos17, 544061224141950, []⟩
private def docGotos18 : List (Nat × Nat) := [(5, 36), (11, 112), (20, 33), (21, 34)]
private def docState49 : LState := ⟨[((.bin .ge), 2, 224072935831239553)], docClos3, docShifts5, docGotos18, 544061224141950, []⟩
private def docGotos19 : List (Nat × Nat) := [(5, 36), (11, 113), (20, 33), (21, 34)]
private def docState50 : LState := ⟨[((.bin .bitor), 2, 224072935831239553)], docClos3, docShifts5, docGotos19, 544061224141950, []⟩
private def docGotos20 : List (Nat × Nat) := [(5, 36), (11, 114), (20, 33), (21, 34)]
private def docState51 : LState := ⟨[((.bin .bitxor), 2, 224072935831239553)], docClos3, docShifts5, docGotos20, 544061224141950, []⟩
private def docGotos21 : List (Nat × Nat) := [(5, 36), (11, 115), (20, 33), (21, 34)]
private def docState52 : LState := ⟨[((.bin .bitand), 2, 224072935831239553)], docClos3, docShifts5, docGotos21, 544061224141950, []⟩
private def docGotos22 : List (Nat × Nat) := [(5, 36), (11, 116), (20, 33), (21, 34)]
private def docState53 : LState := ⟨[((.bin .plus), 2, 224072935831239553)], docClos3, docShifts5, docGotos22, 544061224141950, []⟩
private def docGotos23 : List (Nat × Nat) := [(5, 36), (11, 117), (20, 33), (21, 34)]
private def docState54 : LState := ⟨[((.bin .minus), 2, 224072935831239553)], docClos3, docShifts5, docGotos23, 544061224141950, []⟩
private def docGotos24 : List (Nat × Nat) := [(5, 36), (11, 118), (20, 33), (21, 34)]
private def docState55 : LState := ⟨[((.bin .times), 2, 224072935831239553)], docClos3, docShifts5, docGotos24, 544061224141950, []⟩
private def docGotos25 : List (Nat × Nat) := [(5, 36), (11, 119), (20, 33), (21, 34)]
private def docState56 : LState := ⟨[((.bin .fdiv), 2, 224072935831239553)], docClos3, docShifts5, docGotos25, 544061224141950, []⟩
private def docGotos26 : List (Nat × Nat) := [(5, 36), (11, 120), (20, 33), (21, 34)]
private def docState57 : LState := ⟨[((.bin .idiv), 2, 224072935831239553)], docClos3, docShifts5, docGotos26, 544061224141950, []⟩
private def docGotos27 : List (Nat × Nat) := [(5, 36), (11, 121), (20, 33), (21, 34)]
private def docState58 : LState := ⟨[((.bin .mod), 2, 224072935831239553)], docClos3, docShifts5, docGotos27, 544061224141950, []⟩
private def docGotos28 : List (Nat × Nat) := [(5, 36), (11, 122), (20, 33), (21, 34)]
private def docState59 : LState := ⟨[((.bin .rem), 2, 224072935831239553)], docClos3, docShifts5, docGotos28, 544061224141950, []⟩
private def docGotos29 : List (Nat × Nat) := [(5, 36), (11, 123), (20, 33), (21, 34)]
private def docState60 : LState := ⟨[((.bin .pow), 2, 224072935831239553)], docClos3, docShifts5, docGotos29, 544061224141950, []⟩
private def docGotos30 : List (Nat × Nat) := [(5, 36), (6, 76), (7, 79), (8, 124), (10, 75), (11, 74), (13, 77), (20, 33), (21, 34), (22, 78)]
private def docState61 : LState := ⟨[(.genSet, 2, 224072935831239553), (.genGet, 2, 224072935831239553)], docClos2, docShifts3, docGotos30, 544095583880574, [(2251799813685760, .empty)]⟩
private def docClos6 : List (Nat × Nat) := [(5, 220676406974081281), (11, 220676406974081281), (20, 222928206787766529), (21, 222928206787766529)]
private def docGotos31 : List (Nat × Nat) := [(5, 36), (11, 125), (20, 33), (21, 34)]
private def docState62 : LState := ⟨[(.exprsMore, 2, 220676381741156353), (.exprsSemi, 2, 220676381741156353)], docClos6, docShifts5, docGotos31, 544061224141950, [(220676381741156353, .exprsSemi)]⟩
private def docState63 : LState := ⟨[(.namedMore, 2, 220676381741154305), (.namedSemi, 2, 220676381741154305)], [(14, 220676381741154305)], [(5, 126)], [(14, 127)], 32, [(220676381741154305, .namedSemi)]⟩
private def docState64 : LState := ⟨[(.cellsMore, 2, 220676381741154305), (.cellsSemi, 2, 220676381741154305)], [(16, 220676381741154305)], [(5, 128)], [(16, 129)], 32, [(220676381741154305, .cellsSemi)]⟩
private def docKernel3 : List (Pr × Nat × Nat) := [(.exprs1, 1, 4503599627372544), ((.bin .or), 1, 4503624860297472), ((.bin .xor), 1, 4503624860297472), ((.bin .and), 1, 4503624860297472), ((.bin .eq), 1, 4503624860297472), ((.bin .ne), 1, 4503624860297472), ((.bin .lt), 1, 4503624860297472), ((.bin .le), 1, 4503624860297472), ((.bin .gt), 1, 4503624860297472), ((.bin .ge), 1, 4503624860297472), ((.bin .bitor), 1, 4503624860297472), ((.bin .bitxor), 1, 4503624860297472), ((.bin .bitand), 1, 4503624860297472), ((.bin .plus), 1, 4503624860297472), ((.bin .minus), 1, 4503624860297472), ((.bin .times), 1, 4503624860297472), ((.bin .fdiv), 1, 4503624860297472), ((.bin .idiv), 1, 4503624860297472), ((.bin .mod), 1, 4503624860297472), ((.bin .rem), 1, 4503624860297472), ((.bin .pow), 1, 4503624860297472), (.genSet, 1, 4503624860297472), (.genGet, 1, 4503624860297472)]
private def docState65 : LState := ⟨docKernel3, [], docShifts1, [], 25232924928, [(4503599627372544, .exprs1)]⟩
private def docState66 : LState := ⟨[(.exprsMore, 1, 4503599627372544), (.exprsSemi, 1, 4503599627372544), (.blockE, 2, 224072935831239553)], [], [(11, 130), (52, 62)], [], 4503599627372544, []⟩
private def docState67 : LState := ⟨[(.blockP, 2, 224072935831239553), (.paramsMore, 1, 2251799813687296)], [], [(11, 131), (51, 132)], [], 2251799813687296, []⟩
private def docState68 : LState := ⟨[(.params0, 1, 2251799813691520)], [], [], [], 0, [(2251799813691520, .params0)]⟩
private def docState69 : LState := ⟨[(.params1, 1, 2251799813691520)], [], [], [], 0, [(2251799813691520, .params1)]⟩
private def docKernel4 : List (Pr × Nat × Nat) := [(.paramName, 1, 224072935831239553), (.call, 1, 224072935831239553), (.assignment, 1, 224072935831239553), (.get, 1, 224072935831239553), (.to1, 1, 224072935831239553), (.to2, 1, 224072935831239553), (.to3, 1, 224072935831239553), (.to4, 1, 224072935831239553), (.to5, 1, 224072935831239553), (.enumSym, 1, 224072935831239553), (.sName, 1, 224072935831239553)]
private def docShifts7 : List (Nat × Nat) := [(6, 134), (8, 83), (49, 84), (53, 133), (54, 135), (55, 85)]
private def docState70 : LState := ⟨docKernel4, [], docShifts7, [], 63613344736608576, [(224072935831239297, .sName)]⟩
private def docState71 : LState := ⟨[(.paramStr, 1, 224072935831239553), (.sStr, 1, 224072935831239553)], [], [(53, 136)], [], 9007199254740992, [(224072935831239553, .sStr)]⟩
private def docState72 : LState := ⟨[(.paramRaw, 1, 224072935831239553), (.sRaw, 1, 224072935831239553)], [], [(53, 137)], [], 9007199254740992, [(224072935831239553, .sRaw)]⟩
private def docState73 : LState := ⟨[(.bracketed, 2, 224072935831239553), (.argsMore, 1, 2251799813685760)], [], [(9, 138), (51, 139)], [], 2251799813685760, []⟩
private def docKernel5 : List (Pr × Nat × Nat) := [(.argE, 1, 224072935831239553), ((.bin .or), 1, 224072935831239553), ((.bin .xor), 1, 224072935831239553), ((.bin .and), 1, 224072935831239553), ((.bin .eq), 1, 224072935831239553), ((.bin .ne), 1, 224072935831239553), ((.bin .lt), 1, 224072935831239553), ((.bin .le), 1, 224072935831239553), ((.bin .gt), 1, 224072935831239553), ((.bin .ge), 1, 224072935831239553), ((.bin .bitor), 1, 224072935831239553), ((.bin .bitxor), 1, 224072935831239553), ((.bin .bitand), 1, 224072935831239553), ((.bin .plus), 1, 224072935831239553), ((.bin .minus), 1, 224072935831239553), ((.bin .times), 1, 224072935831239553), ((.bin .fdiv), 1, 224072935831239553), ((.bin .idiv), 1, 224072935831239553), ((.bin .mod), 1, 224072935831239553), ((.bin .rem), 1, 224072935831239553), ((.bin .pow), 1, 224072935831239553), (.genSet, 1, 224072935831239553), (.genGet, 1, 224072935831239553)]
private def docState74 : LState := ⟨docKernel5, [], docShifts1, [], 25232924928, [(224072910598314625, .argE)]⟩
private def docState75 : LState := ⟨[(.argP, 1, 224072935831239553)], [], [], [], 0, [(224072935831239553, .argP)]⟩
private def docState76 : LState := ⟨[(.argB, 1, 224072935831239553)], [], [], [], 0, [(224072935831239553, .argB)]⟩
private def docState77 : LState := ⟨[(.argF, 1, 224072935831239553)], [], [], [], 0, [(224072935831239553, .argF)]⟩
private def docState78 : LState := ⟨[(.args0, 1, 2251799813685888)], [], [], [], 0, [(2251799813685888, .args0)]⟩
private def docState79 : LState := ⟨[(.args1, 1, 2251799813685888)], [], [], [], 0, [(2251799813685888, .args1)]⟩
private def docState80 : LState := ⟨[(.fcnE, 1, 224072935831239553), (.fcnB, 1, 224072935831239553)], [], [(6, 140)], [], 64, []⟩
private def docKernel6 : List (Pr × Nat × Nat) := [(.call, 2, 220676406974079233), (.cellBlock, 2, 220676381741154305), (.cellBracketed, 2, 220676381741154305), (.cellNumber, 2, 220676381741154305), (.cellStr, 2, 220676381741154305), (.cellRaw, 2, 220676381741154305), (.cellName, 2, 220676381741154305), (.cellRepl, 2, 220676381741154305)]
private def docClos7 : List (Nat × Nat) := [(5, 2251825046610304), (6, 2251799813685376), (7, 2251799813685376), (8, 2251799813685376), (10, 2251799813685376), (11, 2251825046610304), (13, 2251799813685376), (20, 2251825046610304), (21, 2251825046610304), (22, 2251799813685376)]
private def docGotos32 : List (Nat × Nat) := [(5, 36), (6, 76), (7, 79), (8, 141), (10, 75), (11, 74), (13, 77), (20, 33), (21, 34), (22, 78)]
private def docState81 : LState := ⟨docKernel6, docClos7, docShifts3, docGotos32, 544095583880574, [(2251799813685376, .empty)]⟩
private def docClos8 : List (Nat × Nat) := [(5, 222928206787764481), (11, 222928206787764481), (20, 222928206787764481), (21, 222928206787764481)]
private def docShifts8 : List (Nat × Nat) := [(1, 37), (2, 38), (3, 39), (4, 15), (5, 86), (6, 20), (10, 13), (14, 17), (29, 19), (33, 18), (35, 143), (36, 24), (38, 25), (39, 26), (41, 27), (42, 28), (43, 29), (45, 30), (46, 31), (47, 32), (48, 35)]
private def docGotos33 : List (Nat × Nat) := [(5, 36), (11, 142), (20, 33), (21, 34)]
private def docState82 : LState := ⟨[(.namedE, 2, 220676381741154305), (.namedB, 2, 220676381741154305), (.assignment, 2, 222928206787764481)], docClos8, docShifts8, docGotos33, 544095583880318, []⟩
private def docKernel7 : List (Pr × Nat × Nat) := [(.get, 2, 224072935831239553), (.to1, 2, 224072935831239553), (.to2, 2, 224072935831239553), (.to3, 2, 224072935831239553)]
private def docGotos34 : List (Nat × Nat) := [(5, 36), (6, 76), (7, 79), (8, 144), (10, 75), (11, 74), (13, 77), (20, 33), (21, 34), (22, 78)]
private def docState83 : LState := ⟨docKernel7, docClos2, docShifts3, docGotos34, 544095583880574, [(2251799813685760, .empty)]⟩
private def docClos9 : List (Nat × Nat) := [(5, 224072935831239553), (6, 224072935831239553), (7, 224072935831239553), (10, 224072935831239553), (11, 224072935831239553), (13, 224072935831239553), (20, 224072935831239553), (21, 224072935831239553)]
private def docGotos35 : List (Nat × Nat) := [(5, 36), (6, 76), (7, 145), (10, 75), (11, 74), (13, 77), (20, 33), (21, 34)]
private def docState84 : LState := ⟨[(.to4, 2, 224072935831239553), (.to5, 2, 224072935831239553)], docClos9, docShifts3, docGotos35, 544095583880574, []⟩
private def docState85 : LState := ⟨[(.enumSym, 2, 224072935831239553)], [], [(5, 146)], [], 32, []⟩
private def docKernel8 : List (Pr × Nat × Nat) := [(.call, 1, 224072935831239553), (.assignment, 1, 224072935831239553), (.get, 1, 224072935831239553), (.to1, 1, 224072935831239553), (.to2, 1, 224072935831239553), (.to3, 1, 224072935831239553), (.to4, 1, 224072935831239553), (.to5, 1, 224072935831239553), (.enumSym, 1, 224072935831239553), (.sName, 1, 224072935831239553)]
private def docShifts9 : List (Nat × Nat) := [(6, 134), (8, 83), (49, 84), (54, 135), (55, 85)]
private def docState86 : LState := ⟨docKernel8, [], docShifts9, [], 54606145481867584, [(224072935831239297, .sName)]⟩
private def docKernel9 : List (Pr × Nat × Nat) := [(.uminus, 2, 224072935831239553), ((.bin .or), 1, 224072935831239553), ((.bin .xor), 1, 224072935831239553), ((.bin .and), 1, 224072935831239553), ((.bin .eq), 1, 224072935831239553), ((.bin .ne), 1, 224072935831239553), ((.bin .lt), 1, 224072935831239553), ((.bin .le), 1, 224072935831239553), ((.bin .gt), 1, 224072935831239553), ((.bin .ge), 1, 224072935831239553), ((.bin .bitor), 1, 224072935831239553), ((.bin .bitxor), 1, 224072935831239553), ((.bin .bitand), 1, 224072935831239553), ((.bin .plus), 1, 224072935831239553), ((.bin .minus), 1, 224072935831239553), ((.bin .times), 1, 224072935831239553), ((.bin .fdiv), 1, 224072935831239553), ((.bin .idiv), 1, 224072935831239553), ((.bin .mod), 1, 224072935831239553), ((.bin .rem), 1, 224072935831239553), ((.bin .pow), 1, 224072935831239553), (.genSet, 1, 224072935831239553), (.genGet, 1, 224072935831239553)]
private def docState87 : LState := ⟨docKernel9, [], docShifts1, [], 524288, [(224072935830715265, .uminus)]⟩
private def docKernel10 : List (Pr × Nat × Nat) := [(.bitnot, 2, 224072935831239553), ((.bin .or), 1, 224072935831239553), ((.bin .xor), 1, 224072935831239553), ((.bin .and), 1, 224072935831239553), ((.bin .eq), 1, 224072935831239553), ((.bin .ne), 1, 224072935831239553), ((.bin .lt), 1, 224072935831239553), ((.bin .le), 1, 224072935831239553), ((.bin .gt), 1, 224072935831239553), ((.bin .ge), 1, 224072935831239553), ((.bin .bitor), 1, 224072935831239553), ((.bin .bitxor), 1, 224072935831239553), ((.bin .bitand), 1, 224072935831239553), ((.bin .plus), 1, 224072935831239553), ((.bin .minus), 1, 224072935831239553), ((.bin .times), 1, 224072935831239553), ((.bin .fdiv), 1, 224072935831239553), ((.bin .idiv), 1, 224072935831239553), ((.bin .mod), 1, 224072935831239553), ((.bin .rem), 1, 224072935831239553), ((.bin .pow), 1, 224072935831239553), (.genSet, 1, 224072935831239553), (.genGet, 1, 224072935831239553)]
private def docState88 : LState := ⟨docKernel10, [], docShifts1, [], 524288, [(224072935830715265, .bitnot)]⟩
private def docKernel11 : List (Pr × Nat × Nat) := [(.not, 2, 224072935831239553), ((.bin .or), 1, 224072935831239553), ((.bin .xor), 1, 224072935831239553), ((.bin .and), 1, 224072935831239553), ((.bin .eq), 1, 224072935831239553), ((.bin .ne), 1, 224072935831239553), ((.bin .lt), 1, 224072935831239553), ((.bin .le), 1, 224072935831239553), ((.bin .gt), 1, 224072935831239553), ((.bin .ge), 1, 224072935831239553), ((.bin .bitor), 1, 224072935831239553), ((.bin .bitxor), 1, 224072935831239553), ((.bin .bitand), 1, 224072935831239553), ((.bin .plus), 1, 224072935831239553), ((.bin .minus), 1, 224072935831239553), ((.bin .times), 1, 224072935831239553), ((.bin .fdiv), 1, 224072935831239553), ((.bin .idiv), 1, 224072935831239553), ((.bin .mod), 1, 224072935831239553), ((.bin .rem), 1, 224072935831239553), ((.bin .pow), 1, 224072935831239553), (.genSet, 1, 224072935831239553), (.genGet, 1, 224072935831239553)]
private def docState89 : LState := ⟨docKernel11, [], docShifts1, [], 24763162624, [(224072911068076929, .not)]⟩
private def docKernel12 : List (Pr × Nat × Nat) := [((.bin .or), 1, 25232925056), ((.bin .xor), 1, 25232925056), ((.bin .and), 1, 25232925056), ((.bin .eq), 1, 25232925056), ((.bin .ne), 1, 25232925056), ((.bin .lt), 1, 25232925056), ((.bin .le), 1, 25232925056), ((.bin .gt), 1, 25232925056), ((.bin .ge), 1, 25232925056), ((.bin .bitor), 1, 25232925056), ((.bin .bitxor), 1, 25232925056), ((.bin .bitand), 1, 25232925056), ((.bin .plus), 1, 25232925056), ((.bin .minus), 1, 25232925056), ((.bin .times), 1, 25232925056), ((.bin .fdiv), 1, 25232925056), ((.bin .idiv), 1, 25232925056), ((.bin .mod), 1, 25232925056), ((.bin .rem), 1, 25232925056), ((.bin .pow), 1, 25232925056), (.group, 2, 224072935831239553), (.genSet, 1, 25232925056), (.genGet, 1, 25232925056)]
private def docShifts10 : List (Nat × Nat) := [(7, 147), (8, 61), (13, 53), (14, 54), (15, 55), (16, 56), (17, 58), (18, 59), (19, 60), (20, 44), (21, 45), (22, 46), (23, 47), (24, 48), (25, 49), (26, 43), (27, 41), (28, 42), (30, 52), (31, 50), (32, 51), (34, 57)]
private def docState90 : LState := ⟨docKernel12, [], docShifts10, [], 25232925056, []⟩
private def docGotos36 : List (Nat × Nat) := [(5, 36), (11, 148), (20, 33), (21, 34)]
private def docState91 : LState := ⟨[(.if1, 2, 224072935831239553), (.if2, 2, 224072935831239553)], docClos4, docShifts5, docGotos36, 544061224141950, []⟩
private def docGotos37 : List (Nat × Nat) := [(5, 36), (11, 149), (20, 33), (21, 34)]
private def docState92 : LState := ⟨[(.while_, 2, 224072935831239553)], docClos4, docShifts5, docGotos37, 544061224141950, []⟩
private def docKernel13 : List (Pr × Nat × Nat) := [((.bin .or), 1, 1124744552704), ((.bin .xor), 1, 1124744552704), ((.bin .and), 1, 1124744552704), ((.bin .eq), 1, 1124744552704), ((.bin .ne), 1, 1124744552704), ((.bin .lt), 1, 1124744552704), ((.bin .le), 1, 1124744552704), ((.bin .gt), 1, 1124744552704), ((.bin .ge), 1, 1124744552704), ((.bin .bitor), 1, 1124744552704), ((.bin .bitxor), 1, 1124744552704), ((.bin .bitand), 1, 1124744552704), ((.bin .plus), 1, 1124744552704), ((.bin .minus), 1, 1124744552704), ((.bin .times), 1, 1124744552704), ((.bin .fdiv), 1, 1124744552704), ((.bin .idiv), 1, 1124744552704), ((.bin .mod), 1, 1124744552704), ((.bin .rem), 1, 1124744552704), ((.bin .pow), 1, 1124744552704), (.doUntil, 2, 224072935831239553), (.genSet, 1, 1124744552704), (.genGet, 1, 1124744552704)]
private def docShifts11 : List (Nat × Nat) := [(8, 61), (13, 53), (14, 54), (15, 55), (16, 56), (17, 58), (18, 59), (19, 60), (20, 44), (21, 45), (22, 46), (23, 47), (24, 48), (25, 49), (26, 43), (27, 41), (28, 42), (30, 52), (31, 50), (32, 51), (34, 57), (40, 150)]
private def docState93 : LState := ⟨docKernel13, [], docShifts11, [], 1124744552704, []⟩
private def docState94 : LState := ⟨[(.for_, 2, 224072935831239553)], [(20, 6755399441055744), (21, 6755399441055744)], [(5, 102)], [(20, 33), (21, 151)], 32, []⟩
private def docKernel14 : List (Pr × Nat × Nat) := [(.each1, 2, 224072935831239553), (.each2, 2, 224072935831239553), (.pairStr, 2, 224072935831239553), (.pairRaw, 2, 224072935831239553), (.pairName, 2, 224072935831239553)]
private def docState95 : LState := ⟨docKernel14, [(10, 2251799813685376)], [(2, 153), (3, 154), (5, 152)], [(10, 155)], 44, []⟩
private def docClos10 : List (Nat × Nat) := [(5, 2251825046610304), (11, 2251825046610304), (20, 2251825046610304), (21, 2251825046610304)]
private def docGotos38 : List (Nat × Nat) := [(5, 36), (11, 156), (20, 33), (21, 34)]
private def docState96 : LState := ⟨[(.cast1, 2, 224072935831239553), (.cast2, 2, 224072935831239553)], docClos10, docShifts5, docGotos38, 544061224141950, []⟩
private def docState97 : LState := ⟨[(.ifnn1, 2, 224072935831239553), (.ifnn2, 2, 224072935831239553)], [(9, 2251799813685376), (10, 2251799813685376), (22, 2251799813685376)], [(2, 159), (3, 160), (5, 158)], [(9, 157), (10, 69), (22, 68)], 44, [(2251799813685376, .empty)]⟩
private def docClos11 : List (Nat × Nat) := [(5, 2251825046610176), (11, 2251825046610176), (20, 2251825046610176), (21, 2251825046610176)]
private def docGotos39 : List (Nat × Nat) := [(5, 36), (11, 161), (20, 33), (21, 34)]
private def docState98 : LState := ⟨[(.unpack1, 2, 224072935831239553), (.unpack2, 2, 224072935831239553)], docClos11, docShifts5, docGotos39, 544061224141950, []⟩
private def docKernel15 : List (Pr × Nat × Nat) := [((.bin .or), 1, 224072935831239553), ((.bin .xor), 1, 224072935831239553), ((.bin .and), 1, 224072935831239553), ((.bin .eq), 1, 224072935831239553), ((.bin .ne), 1, 224072935831239553), ((.bin .lt), 1, 224072935831239553), ((.bin .le), 1, 224072935831239553), ((.bin .gt), 1, 224072935831239553), ((.bin .ge), 1, 224072935831239553), ((.bin .bitor), 1, 224072935831239553), ((.bin .bitxor), 1, 224072935831239553), ((.bin .bitand), 1, 224072935831239553), ((.bin .plus), 1, 224072935831239553), ((.bin .minus), 1, 224072935831239553), ((.bin .times), 1, 224072935831239553), ((.bin .fdiv), 1, 224072935831239553), ((.bin .idiv), 1, 224072935831239553), ((.bin .mod), 1, 224072935831239553), ((.bin .rem), 1, 224072935831239553), ((.bin .pow), 1, 224072935831239553), (.try1, 2, 224072935831239553), (.genSet, 1, 224072935831239553), (.genGet, 1, 224072935831239553)]
private def docState99 : LState := ⟨docKernel15, [], docShifts1, [], 25232924928, [(224072910598314625, .try1)]⟩
private def docGotos40 : List (Nat × Nat) := [(5, 36), (6, 76), (7, 79), (8, 163), (10, 75), (11, 162), (13, 77), (20, 33), (21, 34), (22, 78)]
private def docState100 : LState := ⟨[(.group, 1, 224072935831239553), (.try2, 2, 224072935831239553), (.try3, 2, 224072935831239553)], docClos7, docShifts3, docGotos40, 544095583880574, [(2251799813685376, .empty)]⟩
private def docState101 : LState := ⟨[(.assignsMore, 2, 224072935831239553)], [(20, 224072935831239553)], [(5, 102)], [(20, 164)], 32, []⟩
private def docState102 : LState := ⟨[(.assignment, 1, 224072935831239553)], [], [(54, 135)], [], 18014398509481984, []⟩
private def docState103 : LState := ⟨[(.assignsMore, 1, 224072935831239553), (.let_, 2, 224072935831239553)], [], [(51, 101)], [], 2251799813685248, [(221821136017554305, .let_)]⟩
private def docKernel16 : List (Pr × Nat × Nat) := [((.bin .or), 1, 224072935831239553), ((.bin .or), 3, 224072935831239553), ((.bin .xor), 1, 224072935831239553), ((.bin .and), 1, 224072935831239553), ((.bin .eq), 1, 224072935831239553), ((.bin .ne), 1, 224072935831239553), ((.bin .lt), 1, 224072935831239553), ((.bin .le), 1, 224072935831239553), ((.bin .gt), 1, 224072935831239553), ((.bin .ge), 1, 224072935831239553), ((.bin .bitor), 1, 224072935831239553), ((.bin .bitxor), 1, 224072935831239553), ((.bin .bitand), 1, 224072935831239553), ((.bin .plus), 1, 224072935831239553), ((.bin .minus), 1, 224072935831239553), ((.bin .times), 1, 224072935831239553), ((.bin .fdiv), 1, 224072935831239553), ((.bin .idiv), 1, 224072935831239553), ((.bin .mod), 1, 224072935831239553), ((.bin .rem), 1, 224072935831239553), ((.bin .pow), 1, 224072935831239553), (.genSet, 1, 224072935831239553), (.genGet, 1, 224072935831239553)]
private def docState104 : LState := ⟨docKernel16, [], docShifts1, [], 25098706944, [(224072910732532609, (.bin .or))]⟩
private def docKernel17 : List (Pr × Nat × Nat) := [((.bin .or), 1, 224072935831239553), ((.bin .xor), 1, 224072935831239553), ((.bin .xor), 3, 224072935831239553), ((.bin .and), 1, 224072935831239553), ((.bin .eq), 1, 224072935831239553), ((.bin .ne), 1, 224072935831239553), ((.bin .lt), 1, 224072935831239553), ((.bin .le), 1, 224072935831239553), ((.bin .gt), 1, 224072935831239553), ((.bin .ge), 1, 224072935831239553), ((.bin .bitor), 1, 224072935831239553), ((.bin .bitxor), 1, 224072935831239553), ((.bin .bitand), 1, 224072935831239553), ((.bin .plus), 1, 224072935831239553), ((.bin .minus), 1, 224072935831239553), ((.bin .times), 1, 224072935831239553), ((.bin .fdiv), 1, 224072935831239553), ((.bin .idiv), 1, 224072935831239553), ((.bin .mod), 1, 224072935831239553), ((.bin .rem), 1, 224072935831239553), ((.bin .pow), 1, 224072935831239553), (.genSet, 1, 224072935831239553), (.genGet, 1, 224072935831239553)]
private def docState105 : LState := ⟨docKernel17, [], docShifts1, [], 24830271488, [(224072911000968065, (.bin .xor))]⟩
private def docKernel18 : List (Pr × Nat × Nat) := [((.bin .or), 1, 224072935831239553), ((.bin .xor), 1, 224072935831239553), ((.bin .and), 1, 224072935831239553), ((.bin .and), 3, 224072935831239553), ((.bin .eq), 1, 224072935831239553), ((.bin .ne), 1, 224072935831239553), ((.bin .lt), 1, 224072935831239553), ((.bin .le), 1, 224072935831239553), ((.bin .gt), 1, 224072935831239553), ((.bin .ge), 1, 224072935831239553), ((.bin .bitor), 1, 224072935831239553), ((.bin .bitxor), 1, 224072935831239553), ((.bin .bitand), 1, 224072935831239553), ((.bin .plus), 1, 224072935831239553), ((.bin .minus), 1, 224072935831239553), ((.bin .times), 1, 224072935831239553), ((.bin .fdiv), 1, 224072935831239553), ((.bin .idiv), 1, 224072935831239553), ((.bin .mod), 1, 224072935831239553), ((.bin .rem), 1, 224072935831239553), ((.bin .pow), 1, 224072935831239553), (.genSet, 1, 224072935831239553), (.genGet, 1, 224072935831239553)]
private def docState106 : LState := ⟨docKernel18, [], docShifts1, [], 24763162624, [(224072911068076929, (.bin .and))]⟩
private def docKernel19 : List (Pr × Nat × Nat) := [((.bin .or), 1, 224072935831239553), ((.bin .xor), 1, 224072935831239553), ((.bin .and), 1, 224072935831239553), ((.bin .eq), 1, 224072935831239553), ((.bin .eq), 3, 224072935831239553), ((.bin .ne), 1, 224072935831239553), ((.bin .lt), 1, 224072935831239553), ((.bin .le), 1, 224072935831239553), ((.bin .gt), 1, 224072935831239553), ((.bin .ge), 1, 224072935831239553), ((.bin .bitor), 1, 224072935831239553), ((.bin .bitxor), 1, 224072935831239553), ((.bin .bitand), 1, 224072935831239553), ((.bin .plus), 1, 224072935831239553), ((.bin .minus), 1, 224072935831239553), ((.bin .times), 1, 224072935831239553), ((.bin .fdiv), 1, 224072935831239553), ((.bin .idiv), 1, 224072935831239553), ((.bin .mod), 1, 224072935831239553), ((.bin .rem), 1, 224072935831239553), ((.bin .pow), 1, 224072935831239553), (.genSet, 1, 224072935831239553), (.genGet, 1, 224072935831239553)]
private def docState107 : LState := ⟨docKernel19, [], docShifts1, [], 24697102336, [(224072911068076929, (.bin .eq))]⟩
private def docKernel20 : List (Pr × Nat × Nat) := [((.bin .or), 1, 224072935831239553), ((.bin .xor), 1, 224072935831239553), ((.bin .and), 1, 224072935831239553), ((.bin .eq), 1, 224072935831239553), ((.bin .ne), 1, 224072935831239553), ((.bin .ne), 3, 224072935831239553), ((.bin .lt), 1, 224072935831239553), ((.bin .le), 1, 224072935831239553), ((.bin .gt), 1, 224072935831239553), ((.bin .ge), 1, 224072935831239553), ((.bin .bitor), 1, 224072935831239553), ((.bin .bitxor), 1, 224072935831239553), ((.bin .bitand), 1, 224072935831239553), ((.bin .plus), 1, 224072935831239553), ((.bin .minus), 1, 224072935831239553), ((.bin .times), 1, 224072935831239553), ((.bin .fdiv), 1, 224072935831239553), ((.bin .idiv), 1, 224072935831239553), ((.bin .mod), 1, 224072935831239553), ((.bin .rem), 1, 224072935831239553), ((.bin .pow), 1, 224072935831239553), (.genSet, 1, 224072935831239553), (.genGet, 1, 224072935831239553)]
private def docState108 : LState := ⟨docKernel20, [], docShifts1, [], 24697102336, [(224072911068076929, (.bin .ne))]⟩
private def docKernel21 : List (Pr × Nat × Nat) := [((.bin .or), 1, 224072935831239553), ((.bin .xor), 1, 224072935831239553), ((.bin .and), 1, 224072935831239553), ((.bin .eq), 1, 224072935831239553), ((.bin .ne), 1, 224072935831239553), ((.bin .lt), 1, 224072935831239553), ((.bin .lt), 3, 224072935831239553), ((.bin .le), 1, 224072935831239553), ((.bin .gt), 1, 224072935831239553), ((.bin .ge), 1, 224072935831239553), ((.bin .bitor), 1, 224072935831239553), ((.bin .bitxor), 1, 224072935831239553), ((.bin .bitand), 1, 224072935831239553), ((.bin .plus), 1, 224072935831239553), ((.bin .minus), 1, 224072935831239553), ((.bin .times), 1, 224072935831239553), ((.bin .fdiv), 1, 224072935831239553), ((.bin .idiv), 1, 224072935831239553), ((.bin .mod), 1, 224072935831239553), ((.bin .rem), 1, 224072935831239553), ((.bin .pow), 1, 224072935831239553), (.genSet, 1, 224072935831239553), (.genGet, 1, 224072935831239553)]
private def docState109 : LState := ⟨docKernel21, [], docShifts1, [], 24697102336, [(224072911068076929, (.bin .lt))]⟩
private def docKernel22 : List (Pr × Nat × Nat) := [((.bin .or), 1, 224072935831239553), ((.bin .xor), 1, 224072935831239553), ((.bin .and), 1, 224072935831239553), ((.bin .eq), 1, 224072935831239553), ((.bin .ne), 1, 224072935831239553), ((.bin .lt), 1, 224072935831239553), ((.bin .le), 1, 224072935831239553), ((.bin .le), 3, 224072935831239553), ((.bin .gt), 1, 224072935831239553), ((.bin .ge), 1, 224072935831239553), ((.bin .bitor), 1, 224072935831239553), ((.bin .bitxor), 1, 224072935831239553), ((.bin .bitand), 1, 224072935831239553), ((.bin .plus), 1, 224072935831239553), ((.bin .minus), 1, 224072935831239553), ((.bin .times), 1, 224072935831239553), ((.bin .fdiv), 1, 224072935831239553), ((.bin .idiv), 1, 224072935831239553), ((.bin .mod), 1, 224072935831239553), ((.bin .rem), 1, 224072935831239553), ((.bin .pow), 1, 224072935831239553), (.genSet, 1, 224072935831239553), (.genGet, 1, 224072935831239553)]
private def docState110 : LState := ⟨docKernel22, [], docShifts1, [], 24697102336, [(224072911068076929, (.bin .le))]⟩
private def docKernel23 : List (Pr × Nat × Nat) := [((.bin .or), 1, 224072935831239553), ((.bin .xor), 1, 224072935831239553), ((.bin .and), 1, 224072935831239553), ((.bin .eq), 1, 224072935831239553), ((.bin .ne), 1, 224072935831239553), ((.bin .lt), 1, 224072935831239553), ((.bin .le), 1, 224072935831239553), ((.bin .gt), 1, 224072935831239553), ((.bin .gt), 3, 224072935831239553), ((.bin .ge), 1, 224072935831239553), ((.bin .bitor), 1, 224072935831239553), ((.bin .bitxor), 1, 224072935831239553), ((.bin .bitand), 1, 224072935831239553), ((.bin .plus), 1, 224072935831239553), ((.bin .minus), 1, 224072935831239553), ((.bin .times), 1, 224072935831239553), ((.bin .fdiv), 1, 224072935831239553), ((.bin .idiv), 1, 224072935831239553), ((.bin .mod), 1, 224072935831239553), ((.bin .rem), 1, 224072935831239553), ((.bin .pow), 1, 224072935831239553), (.genSet, 1, 224072935831239553), (.genGet, 1, 224072935831239553)]
private def docState111 : LState := ⟨docKernel23, [], docShifts1, [], 24697102336, [(224072911068076929, (.bin .gt))]⟩
private def docKernel24 : List (Pr × Nat × Nat) := [((.bin .or), 1, 224072935831239553), ((.bin .xor), 1, 224072935831239553), ((.bin .and), 1, 224072935831239553), ((.bin .eq), 1, 224072935831239553), ((.bin .ne), 1, 224072935831239553), ((.bin .lt), 1, 224072935831239553), ((.bin .le), 1, 224072935831239553), ((.bin .gt), 1, 224072935831239553), ((.bin .ge), 1, 224072935831239553), ((.bin .ge), 3, 224072935831239553), ((.bin .bitor), 1, 224072935831239553), ((.bin .bitxor), 1, 224072935831239553), ((.bin .bitand), 1, 224072935831239553), ((.bin .plus), 1, 224072935831239553), ((.bin .minus), 1, 224072935831239553), ((.bin .times), 1, 224072935831239553), ((.bin .fdiv), 1, 224072935831239553), ((.bin .idiv), 1, 224072935831239553), ((.bin .mod), 1, 224072935831239553), ((.bin .rem), 1, 224072935831239553), ((.bin .pow), 1, 224072935831239553), (.genSet, 1, 224072935831239553), (.genGet, 1, 224072935831239553)]
private def docState112 : LState := ⟨docKernel24, [], docShifts1, [], 24697102336, [(224072911068076929, (.bin .ge))]⟩
private def docKernel25 : List (Pr × Nat × Nat) := [((.bin .or), 1, 224072935831239553), ((.bin .xor), 1, 224072935831239553), ((.bin .and), 1, 224072935831239553), ((.bin .eq), 1, 224072935831239553), ((.bin .ne), 1, 224072935831239553), ((.bin .lt), 1, 224072935831239553), ((.bin .le), 1, 224072935831239553), ((.bin .gt), 1, 224072935831239553), ((.bin .ge), 1, 224072935831239553), ((.bin .bitor), 1, 224072935831239553), ((.bin .bitor), 3, 224072935831239553), ((.bin .bitxor), 1, 224072935831239553), ((.bin .bitand), 1, 224072935831239553), ((.bin .plus), 1, 224072935831239553), ((.bin .minus), 1, 224072935831239553), ((.bin .times), 1, 224072935831239553), ((.bin .fdiv), 1, 224072935831239553), ((.bin .idiv), 1, 224072935831239553), ((.bin .mod), 1, 224072935831239553), ((.bin .rem), 1, 224072935831239553), ((.bin .pow), 1, 224072935831239553), (.genSet, 1, 224072935831239553), (.genGet, 1, 224072935831239553)]
private def docState113 : LState := ⟨docKernel25, [], docShifts1, [], 22549618688, [(224072913281620865, (.bin .bitor))]⟩
private def docKernel26 : List (Pr × Nat × Nat) := [((.bin .or), 1, 224072935831239553), ((.bin .xor), 1, 224072935831239553), ((.bin .and), 1, 224072935831239553), ((.bin .eq), 1, 224072935831239553), ((.bin .ne), 1, 224072935831239553), ((.bin .lt), 1, 224072935831239553), ((.bin .le), 1, 224072935831239553), ((.bin .gt), 1, 224072935831239553), ((.bin .ge), 1, 224072935831239553), ((.bin .bitor), 1, 224072935831239553), ((.bin .bitxor), 1, 224072935831239553), ((.bin .bitxor), 3, 224072935831239553), ((.bin .bitand), 1, 224072935831239553), ((.bin .plus), 1, 224072935831239553), ((.bin .minus), 1, 224072935831239553), ((.bin .times), 1, 224072935831239553), ((.bin .fdiv), 1, 224072935831239553), ((.bin .idiv), 1, 224072935831239553), ((.bin .mod), 1, 224072935831239553), ((.bin .rem), 1, 224072935831239553), ((.bin .pow), 1, 224072935831239553), (.genSet, 1, 224072935831239553), (.genGet, 1, 224072935831239553)]
private def docState114 : LState := ⟨docKernel26, [], docShifts1, [], 18254651392, [(224072917576588161, (.bin .bitxor))]⟩
private def docKernel27 : List (Pr × Nat × Nat) := [((.bin .or), 1, 224072935831239553), ((.bin .xor), 1, 224072935831239553), ((.bin .and), 1, 224072935831239553), ((.bin .eq), 1, 224072935831239553), ((.bin .ne), 1, 224072935831239553), ((.bin .lt), 1, 224072935831239553), ((.bin .le), 1, 224072935831239553), ((.bin .gt), 1, 224072935831239553), ((.bin .ge), 1, 224072935831239553), ((.bin .bitor), 1, 224072935831239553), ((.bin .bitxor), 1, 224072935831239553), ((.bin .bitand), 1, 224072935831239553), ((.bin .bitand), 3, 224072935831239553), ((.bin .plus), 1, 224072935831239553), ((.bin .minus), 1, 224072935831239553), ((.bin .times), 1, 224072935831239553), ((.bin .fdiv), 1, 224072935831239553), ((.bin .idiv), 1, 224072935831239553), ((.bin .mod), 1, 224072935831239553), ((.bin .rem), 1, 224072935831239553), ((.bin .pow), 1, 224072935831239553), (.genSet, 1, 224072935831239553), (.genGet, 1, 224072935831239553)]
private def docState115 : LState := ⟨docKernel27, [], docShifts1, [], 17180909568, [(224072918650329985, (.bin .bitand))]⟩
private def docKernel28 : List (Pr × Nat × Nat) := [((.bin .or), 1, 224072935831239553), ((.bin .xor), 1, 224072935831239553), ((.bin .and), 1, 224072935831239553), ((.bin .eq), 1, 224072935831239553), ((.bin .ne), 1, 224072935831239553), ((.bin .lt), 1, 224072935831239553), ((.bin .le), 1, 224072935831239553), ((.bin .gt), 1, 224072935831239553), ((.bin .ge), 1, 224072935831239553), ((.bin .bitor), 1, 224072935831239553), ((.bin .bitxor), 1, 224072935831239553), ((.bin .bitand), 1, 224072935831239553), ((.bin .plus), 1, 224072935831239553), ((.bin .plus), 3, 224072935831239553), ((.bin .minus), 1, 224072935831239553), ((.bin .times), 1, 224072935831239553), ((.bin .fdiv), 1, 224072935831239553), ((.bin .idiv), 1, 224072935831239553), ((.bin .mod), 1, 224072935831239553), ((.bin .rem), 1, 224072935831239553), ((.bin .pow), 1, 224072935831239553), (.genSet, 1, 224072935831239553), (.genGet, 1, 224072935831239553)]
private def docState116 : LState := ⟨docKernel28, [], docShifts1, [], 17180884992, [(224072918650354561, (.bin .plus))]⟩
private def docKernel29 : List (Pr × Nat × Nat) := [((.bin .or), 1, 224072935831239553), ((.bin .xor), 1, 224072935831239553), ((.bin .and), 1, 224072935831239553), ((.bin .eq), 1, 224072935831239553), ((.bin .ne), 1, 224072935831239553), ((.bin .lt), 1, 224072935831239553), ((.bin .le), 1, 224072935831239553), ((.bin .gt), 1, 224072935831239553), ((.bin .ge), 1, 224072935831239553), ((.bin .bitor), 1, 224072935831239553), ((.bin .bitxor), 1, 224072935831239553), ((.bin .bitand), 1, 224072935831239553), ((.bin .plus), 1, 224072935831239553), ((.bin .minus), 1, 224072935831239553), ((.bin .minus), 3, 224072935831239553), ((.bin .times), 1, 224072935831239553), ((.bin .fdiv), 1, 224072935831239553), ((.bin .idiv), 1, 224072935831239553), ((.bin .mod), 1, 224072935831239553), ((.bin .rem), 1, 224072935831239553), ((.bin .pow), 1, 224072935831239553), (.genSet, 1, 224072935831239553), (.genGet, 1, 224072935831239553)]
private def docState117 : LState := ⟨docKernel29, [], docShifts1, [], 17180884992, [(224072918650354561, (.bin .minus))]⟩
private def docKernel30 : List (Pr × Nat × Nat) := [((.bin .or), 1, 224072935831239553), ((.bin .xor), 1, 224072935831239553), ((.bin .and), 1, 224072935831239553), ((.bin .eq), 1, 224072935831239553), ((.bin .ne), 1, 224072935831239553), ((.bin .lt), 1, 224072935831239553), ((.bin .le), 1, 224072935831239553), ((.bin .gt), 1, 224072935831239553), ((.bin .ge), 1, 224072935831239553), ((.bin .bitor), 1, 224072935831239553), ((.bin .bitxor), 1, 224072935831239553), ((.bin .bitand), 1, 224072935831239553), ((.bin .plus), 1, 224072935831239553), ((.bin .minus), 1, 224072935831239553), ((.bin .times), 1, 224072935831239553), ((.bin .times), 3, 224072935831239553), ((.bin .fdiv), 1, 224072935831239553), ((.bin .idiv), 1, 224072935831239553), ((.bin .mod), 1, 224072935831239553), ((.bin .rem), 1, 224072935831239553), ((.bin .pow), 1, 224072935831239553), (.genSet, 1, 224072935831239553), (.genGet, 1, 224072935831239553)]
private def docState118 : LState := ⟨docKernel30, [], docShifts1, [], 524288, [(224072935830715265, (.bin .times))]⟩
private def docKernel31 : List (Pr × Nat × Nat) := [((.bin .or), 1, 224072935831239553), ((.bin .xor), 1, 224072935831239553), ((.bin .and), 1, 224072935831239553), ((.bin .eq), 1, 224072935831239553), ((.bin .ne), 1, 224072935831239553), ((.bin .lt), 1, 224072935831239553), ((.bin .le), 1, 224072935831239553), ((.bin .gt), 1, 224072935831239553), ((.bin .ge), 1, 224072935831239553), ((.bin .bitor), 1, 224072935831239553), ((.bin .bitxor), 1, 224072935831239553), ((.bin .bitand), 1, 224072935831239553), ((.bin .plus), 1, 224072935831239553), ((.bin .minus), 1, 224072935831239553), ((.bin .times), 1, 224072935831239553), ((.bin .fdiv), 1, 224072935831239553), ((.bin .fdiv), 3, 224072935831239553), ((.bin .idiv), 1, 224072935831239553), ((.bin .mod), 1, 224072935831239553), ((.bin .rem), 1, 224072935831239553), ((.bin .pow), 1, 224072935831239553), (.genSet, 1, 224072935831239553), (.genGet, 1, 224072935831239553)]
private def docState119 : LState := ⟨docKernel31, [], docShifts1, [], 524288, [(224072935830715265, (.bin .fdiv))]⟩
private def docKernel32 : List (Pr × Nat × Nat) := [((.bin .or), 1, 224072935831239553), ((.bin .xor), 1, 224072935831239553), ((.bin .and), 1, 224072935831239553), ((.bin .eq), 1, 224072935831239553), ((.bin .ne), 1, 224072935831239553), ((.bin .lt), 1, 224072935831239553), ((.bin .le), 1, 224072935831239553), ((.bin .gt), 1, 224072935831239553), ((.bin .ge), 1, 224072935831239553), ((.bin .bitor), 1, 224072935831239553), ((.bin .bitxor), 1, 224072935831239553), ((.bin .bitand), 1, 224072935831239553), ((.bin .plus), 1, 224072935831239553), ((.bin .minus), 1, 224072935831239553), ((.bin .times), 1, 224072935831239553), ((.bin .fdiv), 1, 224072935831239553), ((.bin .idiv), 1, 224072935831239553), ((.bin .idiv), 3, 224072935831239553), ((.bin .mod), 1, 224072935831239553), ((.bin .rem), 1, 224072935831239553), ((.bin .pow), 1, 224072935831239553), (.genSet, 1, 224072935831239553), (.genGet, 1, 224072935831239553)]
private def docState120 : LState := ⟨docKernel32, [], docShifts1, [], 524288, [(224072935830715265, (.bin .idiv))]⟩
private def docKernel33 : List (Pr × Nat × Nat) := [((.bin .or), 1, 224072935831239553), ((.bin .xor), 1, 224072935831239553), ((.bin .and), 1, 224072935831239553), ((.bin .eq), 1, 224072935831239553), ((.bin .ne), 1, 224072935831239553), ((.bin .lt), 1, 224072935831239553), ((.bin .le), 1, 224072935831239553), ((.bin .gt), 1, 224072935831239553), ((.bin .ge), 1, 224072935831239553), ((.bin .bitor), 1, 224072935831239553), ((.bin .bitxor), 1, 224072935831239553), ((.bin .bitand), 1, 224072935831239553), ((.bin .plus), 1, 224072935831239553), ((.bin .minus), 1, 224072935831239553), ((.bin .times), 1, 224072935831239553), ((.bin .fdiv), 1, 224072935831239553), ((.bin .idiv), 1, 224072935831239553), ((.bin .mod), 1, 224072935831239553), ((.bin .mod), 3, 224072935831239553), ((.bin .rem), 1, 224072935831239553), ((.bin .pow), 1, 224072935831239553), (.genSet, 1, 224072935831239553), (.genGet, 1, 224072935831239553)]
private def docState121 : LState := ⟨docKernel33, [], docShifts1, [], 524288, [(224072935830715265, (.bin .mod))]⟩
private def docKernel34 : List (Pr × Nat × Nat) := [((.bin .or), 1, 224072935831239553), ((.bin .xor), 1, 224072935831239553), ((.bin .and), 1, 224072935831239553), ((.bin .eq), 1, 224072935831239553), ((.bin .ne), 1, 224072935831239553), ((.bin .lt), 1, 224072935831239553), ((.bin .le), 1, 224072935831239553), ((.bin .gt), 1, 224072935831239553), ((.bin .ge), 1, 224072935831239553), ((.bin .bitor), 1, 224072935831239553), ((.bin .bitxor), 1, 224072935831239553), ((.bin .bitand), 1, 224072935831239553), ((.bin .plus), 1, 224072935831239553), ((.bin .minus), 1, 224072935831239553), ((.bin .times), 1, 224072935831239553), ((.bin .fdiv), 1, 224072935831239553), ((.bin .idiv), 1, 224072935831239553), ((.bin .mod), 1, 224072935831239553), ((.bin .rem), 1, 224072935831239553), ((.bin .rem), 3, 224072935831239553), ((.bin .pow), 1, 224072935831239553), (.genSet, 1, 224072935831239553), (.genGet, 1, 224072935831239553)]
private def docState122 : LState := ⟨docKernel34, [], docShifts1, [], 524288, [(224072935830715265, (.bin .rem))]⟩
private def docKernel35 : List (Pr × Nat × Nat) := [((.bin .or), 1, 224072935831239553), ((.bin .xor), 1, 224072935831239553), ((.bin .and), 1, 224072935831239553), ((.bin .eq), 1, 224072935831239553), ((.bin .ne), 1, 224072935831239553), ((.bin .lt), 1, 224072935831239553), ((.bin .le), 1, 224072935831239553), ((.bin .gt), 1, 224072935831239553), ((.bin .ge), 1, 224072935831239553), ((.bin .bitor), 1, 224072935831239553), ((.bin .bitxor), 1, 224072935831239553), ((.bin .bitand), 1, 224072935831239553), ((.bin .plus), 1, 224072935831239553), ((.bin .minus), 1, 224072935831239553), ((.bin .times), 1, 224072935831239553), ((.bin .fdiv), 1, 224072935831239553), ((.bin .idiv), 1, 224072935831239553), ((.bin .mod), 1, 224072935831239553), ((.bin .rem), 1, 224072935831239553), ((.bin .pow), 1, 224072935831239553), ((.bin .pow), 3, 224072935831239553), (.genSet, 1, 224072935831239553), (.genGet, 1, 224072935831239553)]
private def docState123 : LState := ⟨docKernel35, [], docShifts1, [], 0, [(224072935831239553, (.bin .pow))]⟩
private def docState124 : LState := ⟨[(.argsMore, 1, 2251799813685760), (.genSet, 3, 224072935831239553), (.genGet, 3, 224072935831239553)], [], [(9, 165), (51, 139)], [], 2251799813685760, []⟩
private def docKernel36 : List (Pr × Nat × Nat) := [(.exprsMore, 3, 220676381741156353), ((.bin .or), 1, 220676406974081281), ((.bin .xor), 1, 220676406974081281), ((.bin .and), 1, 220676406974081281), ((.bin .eq), 1, 220676406974081281), ((.bin .ne), 1, 220676406974081281), ((.bin .lt), 1, 220676406974081281), ((.bin .le), 1, 220676406974081281), ((.bin .gt), 1, 220676406974081281), ((.bin .ge), 1, 220676406974081281), ((.bin .bitor), 1, 220676406974081281), ((.bin .bitxor), 1, 220676406974081281), ((.bin .bitand), 1, 220676406974081281), ((.bin .plus), 1, 220676406974081281), ((.bin .minus), 1, 220676406974081281), ((.bin .times), 1, 220676406974081281), ((.bin .fdiv), 1, 220676406974081281), ((.bin .idiv), 1, 220676406974081281), ((.bin .mod), 1, 220676406974081281), ((.bin .rem), 1, 220676406974081281), ((.bin .pow), 1, 220676406974081281), (.genSet, 1, 220676406974081281), (.genGet, 1, 220676406974081281)]
private def docState125 : LState := ⟨docKernel36, [], docShifts1, [], 25232924928, [(220676381741156353, .exprsMore)]⟩
private def docState126 : LState := ⟨[(.namedE, 1, 220676381741154305), (.namedB, 1, 220676381741154305)], [], [(54, 166)], [], 18014398509481984, []⟩
private def docState127 : LState := ⟨[(.namedMore, 3, 220676381741154305)], [], [], [], 0, [(220676381741154305, .namedMore)]⟩
private def docKernel37 : List (Pr × Nat × Nat) := [(.cellBlock, 1, 220676381741154305), (.cellBracketed, 1, 220676381741154305), (.cellNumber, 1, 220676381741154305), (.cellStr, 1, 220676381741154305), (.cellRaw, 1, 220676381741154305), (.cellName, 1, 220676381741154305), (.cellRepl, 1, 220676381741154305)]
private def docState128 : LState := ⟨docKernel37, [], [(6, 167)], [], 64, []⟩
private def docState129 : LState := ⟨[(.cellsMore, 3, 220676381741154305)], [], [], [], 0, [(220676381741154305, .cellsMore)]⟩
private def docState130 : LState := ⟨[(.blockE, 3, 224072935831239553)], [], [], [], 0, [(224072935831239553, .blockE)]⟩
private def docState131 : LState := ⟨[(.blockP, 3, 224072935831239553)], [], [], [], 0, [(224072935831239553, .blockP)]⟩
private def docState132 : LState := ⟨[(.paramsMore, 2, 2251799813691520)], [(10, 2251799813691520)], [(2, 159), (3, 160), (5, 158)], [(10, 168)], 44, []⟩
private def docGotos41 : List (Nat × Nat) := [(5, 36), (6, 76), (7, 169), (10, 75), (11, 74), (13, 77), (20, 33), (21, 34)]
private def docState133 : LState := ⟨[(.paramName, 2, 224072935831239553)], docClos9, docShifts3, docGotos41, 544095583880574, []⟩
private def docGotos42 : List (Nat × Nat) := [(5, 36), (6, 76), (7, 79), (8, 170), (10, 75), (11, 74), (13, 77), (20, 33), (21, 34), (22, 78)]
private def docState134 : LState := ⟨[(.call, 2, 224072935831239553)], docClos7, docShifts3, docGotos42, 544095583880574, [(2251799813685376, .empty)]⟩
private def docState135 : LState := ⟨[(.assignment, 2, 224072935831239553)], docClos3, docShifts5, docGotos33, 544061224141950, []⟩
private def docGotos43 : List (Nat × Nat) := [(5, 36), (6, 76), (7, 171), (10, 75), (11, 74), (13, 77), (20, 33), (21, 34)]
private def docState136 : LState := ⟨[(.paramStr, 2, 224072935831239553)], docClos9, docShifts3, docGotos43, 544095583880574, []⟩
private def docGotos44 : List (Nat × Nat) := [(5, 36), (6, 76), (7, 172), (10, 75), (11, 74), (13, 77), (20, 33), (21, 34)]
private def docState137 : LState := ⟨[(.paramRaw, 2, 224072935831239553)], docClos9, docShifts3, docGotos44, 544095583880574, []⟩
private def docState138 : LState := ⟨[(.bracketed, 3, 224072935831239553)], [], [], [], 0, [(224072935831239553, .bracketed)]⟩
private def docClos12 : List (Nat × Nat) := [(5, 2251825046610816), (6, 2251799813685888), (7, 2251799813685888), (10, 2251799813685888), (11, 2251825046610816), (13, 2251799813685888), (20, 2251825046610816), (21, 2251825046610816)]
private def docGotos45 : List (Nat × Nat) := [(5, 36), (6, 76), (7, 173), (10, 75), (11, 74), (13, 77), (20, 33), (21, 34)]
private def docState139 : LState := ⟨[(.argsMore, 2, 2251799813685888)], docClos12, docShifts3, docGotos45, 544095583880574, []⟩
private def docState140 : LState := ⟨[(.fcnE, 2, 224072935831239553), (.fcnB, 2, 224072935831239553)], [(9, 2251799813689344), (10, 2251799813689344), (22, 2251799813689344)], [(2, 159), (3, 160), (5, 158)], [(9, 174), (10, 69), (22, 68)], 44, [(2251799813689344, .empty)]⟩
private def docKernel38 : List (Pr × Nat × Nat) := [(.argsMore, 1, 2251799813685376), (.call, 3, 220676406974079233), (.cellBlock, 3, 220676381741154305), (.cellBracketed, 3, 220676381741154305), (.cellNumber, 3, 220676381741154305), (.cellStr, 3, 220676381741154305), (.cellRaw, 3, 220676381741154305), (.cellName, 3, 220676381741154305), (.cellRepl, 3, 220676381741154305)]
private def docState141 : LState := ⟨docKernel38, [], [(7, 175), (51, 139)], [], 2251799813685376, []⟩
private def docKernel39 : List (Pr × Nat × Nat) := [((.bin .or), 1, 224072935831239553), ((.bin .xor), 1, 224072935831239553), ((.bin .and), 1, 224072935831239553), ((.bin .eq), 1, 224072935831239553), ((.bin .ne), 1, 224072935831239553), ((.bin .lt), 1, 224072935831239553), ((.bin .le), 1, 224072935831239553), ((.bin .gt), 1, 224072935831239553), ((.bin .ge), 1, 224072935831239553), ((.bin .bitor), 1, 224072935831239553), ((.bin .bitxor), 1, 224072935831239553), ((.bin .bitand), 1, 224072935831239553), ((.bin .plus), 1, 224072935831239553), ((.bin .minus), 1, 224072935831239553), ((.bin .times), 1, 224072935831239553), ((.bin .fdiv), 1, 224072935831239553), ((.bin .idiv), 1, 224072935831239553), ((.bin .mod), 1, 224072935831239553), ((.bin .rem), 1, 224072935831239553), ((.bin .pow), 1, 224072935831239553), (.genSet, 1, 224072935831239553), (.assignment, 3, 224072935831239553), (.genGet, 1, 224072935831239553)]
private def docState142 : LState := ⟨docKernel39, [], docShifts1, [], 25232924928, [(224072910598314625, .assignment)]⟩
private def docState143 : LState := ⟨[(.namedE, 3, 220676381741154305), (.namedB, 3, 220676381741154305)], [], [(6, 176)], [], 64, []⟩
private def docKernel40 : List (Pr × Nat × Nat) := [(.argsMore, 1, 2251799813685760), (.get, 3, 224072935831239553), (.to1, 3, 224072935831239553), (.to2, 3, 224072935831239553), (.to3, 3, 224072935831239553)]
private def docState144 : LState := ⟨docKernel40, [], [(9, 177), (51, 139)], [], 2251799813685760, []⟩
private def docState145 : LState := ⟨[(.to4, 3, 224072935831239553), (.to5, 3, 224072935831239553)], [], [(50, 178)], [], 1125899906842624, [(222947035924396929, .to4)]⟩
private def docState146 : LState := ⟨[(.enumSym, 3, 224072935831239553)], [], [], [], 0, [(224072935831239553, .enumSym)]⟩
private def docState147 : LState := ⟨[(.group, 3, 224072935831239553)], [], [], [], 0, [(224072935831239553, .group)]⟩
private def docKernel41 : List (Pr × Nat × Nat) := [((.bin .or), 1, 25232925056), ((.bin .xor), 1, 25232925056), ((.bin .and), 1, 25232925056), ((.bin .eq), 1, 25232925056), ((.bin .ne), 1, 25232925056), ((.bin .lt), 1, 25232925056), ((.bin .le), 1, 25232925056), ((.bin .gt), 1, 25232925056), ((.bin .ge), 1, 25232925056), ((.bin .bitor), 1, 25232925056), ((.bin .bitxor), 1, 25232925056), ((.bin .bitand), 1, 25232925056), ((.bin .plus), 1, 25232925056), ((.bin .minus), 1, 25232925056), ((.bin .times), 1, 25232925056), ((.bin .fdiv), 1, 25232925056), ((.bin .idiv), 1, 25232925056), ((.bin .mod), 1, 25232925056), ((.bin .rem), 1, 25232925056), ((.bin .pow), 1, 25232925056), (.if1, 3, 224072935831239553), (.if2, 3, 224072935831239553), (.genSet, 1, 25232925056), (.genGet, 1, 25232925056)]
private def docShifts12 : List (Nat × Nat) := [(7, 179), (8, 61), (13, 53), (14, 54), (15, 55), (16, 56), (17, 58), (18, 59), (19, 60), (20, 44), (21, 45), (22, 46), (23, 47), (24, 48), (25, 49), (26, 43), (27, 41), (28, 42), (30, 52), (31, 50), (32, 51), (34, 57)]
private def docState148 : LState := ⟨docKernel41, [], docShifts12, [], 25232925056, []⟩
private def docKernel42 : List (Pr × Nat × Nat) := [((.bin .or), 1, 25232925056), ((.bin .xor), 1, 25232925056), ((.bin .and), 1, 25232925056), ((.bin .eq), 1, 25232925056), ((.bin .ne), 1, 25232925056), ((.bin .lt), 1, 25232925056), ((.bin .le), 1, 25232925056), ((.bin .gt), 1, 25232925056), ((.bin .ge), 1, 25232925056), ((.bin .bitor), 1, 25232925056), ((.bin .bitxor), 1, 25232925056), ((.bin .bitand), 1, 25232925056), ((.bin .plus), 1, 25232925056), ((.bin .minus), 1, 25232925056), ((.bin .times), 1, 25232925056), ((.bin .fdiv), 1, 25232925056), ((.bin .idiv), 1, 25232925056), ((.bin .mod), 1, 25232925056), ((.bin .rem), 1, 25232925056), ((.bin .pow), 1, 25232925056), (.while_, 3, 224072935831239553), (.genSet, 1, 25232925056), (.genGet, 1, 25232925056)]
private def docShifts13 : List (Nat × Nat) := [(7, 180), (8, 61), (13, 53), (14, 54), (15, 55), (16, 56), (17, 58), (18, 59), (19, 60), (20, 44), (21, 45), (22, 46), (23, 47), (24, 48), (25, 49), (26, 43), (27, 41), (28, 42), (30, 52), (31, 50), (32, 51), (34, 57)]
private def docState149 : LState := ⟨docKernel42, [], docShifts13, [], 25232925056, []⟩
private def docState150 : LState := ⟨[(.doUntil, 3, 224072935831239553)], [], [(6, 181)], [], 64, []⟩
private def docState151 : LState := ⟨[(.for_, 3, 224072935831239553), (.assignsMore, 1, 6755399441055744)], [], [(51, 101), (52, 182)], [], 6755399441055744, []⟩
private def docState152 : LState := ⟨[(.paramName, 1, 2251799813685376), (.pairName, 3, 224072935831239553)], [], [(51, 183), (53, 133)], [], 11258999068426240, []⟩
private def docState153 : LState := ⟨[(.paramStr, 1, 2251799813685376), (.pairStr, 3, 224072935831239553)], [], [(51, 184), (53, 136)], [], 11258999068426240, []⟩
private def docState154 : LState := ⟨[(.paramRaw, 1, 2251799813685376), (.pairRaw, 3, 224072935831239553)], [], [(51, 185), (53, 137)], [], 11258999068426240, []⟩
private def docState155 : LState := ⟨[(.each1, 3, 224072935831239553), (.each2, 3, 224072935831239553)], [], [(7, 186), (51, 187)], [], 2251799813685376, []⟩
private def docKernel43 : List (Pr × Nat × Nat) := [((.bin .or), 1, 2251825046610304), ((.bin .xor), 1, 2251825046610304), ((.bin .and), 1, 2251825046610304), ((.bin .eq), 1, 2251825046610304), ((.bin .ne), 1, 2251825046610304), ((.bin .lt), 1, 2251825046610304), ((.bin .le), 1, 2251825046610304), ((.bin .gt), 1, 2251825046610304), ((.bin .ge), 1, 2251825046610304), ((.bin .bitor), 1, 2251825046610304), ((.bin .bitxor), 1, 2251825046610304), ((.bin .bitand), 1, 2251825046610304), ((.bin .plus), 1, 2251825046610304), ((.bin .minus), 1, 2251825046610304), ((.bin .times), 1, 2251825046610304), ((.bin .fdiv), 1, 2251825046610304), ((.bin .idiv), 1, 2251825046610304), ((.bin .mod), 1, 2251825046610304), ((.bin .rem), 1, 2251825046610304), ((.bin .pow), 1, 2251825046610304), (.cast1, 3, 224072935831239553), (.cast2, 3, 224072935831239553), (.genSet, 1, 2251825046610304), (.genGet, 1, 2251825046610304)]
private def docShifts14 : List (Nat × Nat) := [(7, 188), (8, 61), (13, 53), (14, 54), (15, 55), (16, 56), (17, 58), (18, 59), (19, 60), (20, 44), (21, 45), (22, 46), (23, 47), (24, 48), (25, 49), (26, 43), (27, 41), (28, 42), (30, 52), (31, 50), (32, 51), (34, 57), (51, 189)]
private def docState156 : LState := ⟨docKernel43, [], docShifts14, [], 2251825046610304, []⟩
private def docState157 : LState := ⟨[(.paramsMore, 1, 2251799813685376), (.ifnn1, 3, 224072935831239553), (.ifnn2, 3, 224072935831239553)], [], [(7, 190), (51, 132)], [], 2251799813685376, []⟩
private def docState158 : LState := ⟨[(.paramName, 1, 2251799813691520)], [], [(53, 133)], [], 9007199254740992, []⟩
private def docState159 : LState := ⟨[(.paramStr, 1, 2251799813691520)], [], [(53, 136)], [], 9007199254740992, []⟩
private def docState160 : LState := ⟨[(.paramRaw, 1, 2251799813691520)], [], [(53, 137)], [], 9007199254740992, []⟩
private def docKernel44 : List (Pr × Nat × Nat) := [((.bin .or), 1, 2251825046610176), ((.bin .xor), 1, 2251825046610176), ((.bin .and), 1, 2251825046610176), ((.bin .eq), 1, 2251825046610176), ((.bin .ne), 1, 2251825046610176), ((.bin .lt), 1, 2251825046610176), ((.bin .le), 1, 2251825046610176), ((.bin .gt), 1, 2251825046610176), ((.bin .ge), 1, 2251825046610176), ((.bin .bitor), 1, 2251825046610176), ((.bin .bitxor), 1, 2251825046610176), ((.bin .bitand), 1, 2251825046610176), ((.bin .plus), 1, 2251825046610176), ((.bin .minus), 1, 2251825046610176), ((.bin .times), 1, 2251825046610176), ((.bin .fdiv), 1, 2251825046610176), ((.bin .idiv), 1, 2251825046610176), ((.bin .mod), 1, 2251825046610176), ((.bin .rem), 1, 2251825046610176), ((.bin .pow), 1, 2251825046610176), (.unpack1, 3, 224072935831239553), (.unpack2, 3, 224072935831239553), (.genSet, 1, 2251825046610176), (.genGet, 1, 2251825046610176)]
private def docShifts15 : List (Nat × Nat) := [(8, 61), (13, 53), (14, 54), (15, 55), (16, 56), (17, 58), (18, 59), (19, 60), (20, 44), (21, 45), (22, 46), (23, 47), (24, 48), (25, 49), (26, 43), (27, 41), (28, 42), (30, 52), (31, 50), (32, 51), (34, 57), (51, 191)]
private def docState161 : LState := ⟨docKernel44, [], docShifts15, [], 2251825046610176, []⟩
private def docKernel45 : List (Pr × Nat × Nat) := [(.argE, 1, 2251799813685376), ((.bin .or), 1, 2251825046610304), ((.bin .xor), 1, 2251825046610304), ((.bin .and), 1, 2251825046610304), ((.bin .eq), 1, 2251825046610304), ((.bin .ne), 1, 2251825046610304), ((.bin .lt), 1, 2251825046610304), ((.bin .le), 1, 2251825046610304), ((.bin .gt), 1, 2251825046610304), ((.bin .ge), 1, 2251825046610304), ((.bin .bitor), 1, 2251825046610304), ((.bin .bitxor), 1, 2251825046610304), ((.bin .bitand), 1, 2251825046610304), ((.bin .plus), 1, 2251825046610304), ((.bin .minus), 1, 2251825046610304), ((.bin .times), 1, 2251825046610304), ((.bin .fdiv), 1, 2251825046610304), ((.bin .idiv), 1, 2251825046610304), ((.bin .mod), 1, 2251825046610304), ((.bin .rem), 1, 2251825046610304), ((.bin .pow), 1, 2251825046610304), (.group, 2, 224072935831239553), (.try2, 3, 224072935831239553), (.genSet, 1, 2251825046610304), (.genGet, 1, 2251825046610304)]
private def docShifts16 : List (Nat × Nat) := [(7, 192), (8, 61), (13, 53), (14, 54), (15, 55), (16, 56), (17, 58), (18, 59), (19, 60), (20, 44), (21, 45), (22, 46), (23, 47), (24, 48), (25, 49), (26, 43), (27, 41), (28, 42), (30, 52), (31, 50), (32, 51), (34, 57)]
private def docState162 : LState := ⟨docKernel45, [], docShifts16, [], 25232925056, [(2251799813685248, .argE)]⟩
private def docState163 : LState := ⟨[(.argsMore, 1, 2251799813685376), (.try3, 3, 224072935831239553)], [], [(7, 193), (51, 139)], [], 2251799813685376, []⟩
private def docState164 : LState := ⟨[(.assignsMore, 3, 224072935831239553)], [], [], [], 0, [(224072935831239553, .assignsMore)]⟩
private def docState165 : LState := ⟨[(.genSet, 4, 224072935831239553), (.genGet, 4, 224072935831239553)], [], [(54, 194)], [], 18014398509481984, [(224072935831239553, .genGet)]⟩
private def docState166 : LState := ⟨[(.namedE, 2, 220676381741154305), (.namedB, 2, 220676381741154305)], [], [(35, 143)], [], 34359738368, []⟩
private def docKernel46 : List (Pr × Nat × Nat) := [(.cellBlock, 2, 220676381741154305), (.cellBracketed, 2, 220676381741154305), (.cellNumber, 2, 220676381741154305), (.cellStr, 2, 220676381741154305), (.cellRaw, 2, 220676381741154305), (.cellName, 2, 220676381741154305), (.cellRepl, 2, 220676381741154305)]
private def docGotos46 : List (Nat × Nat) := [(5, 36), (6, 76), (7, 79), (8, 195), (10, 75), (11, 74), (13, 77), (20, 33), (21, 34), (22, 78)]
private def docState167 : LState := ⟨docKernel46, docClos7, docShifts3, docGotos46, 544095583880574, [(2251799813685376, .empty)]⟩
private def docState168 : LState := ⟨[(.paramsMore, 3, 2251799813691520)], [], [], [], 0, [(2251799813691520, .paramsMore)]⟩
private def docState169 : LState := ⟨[(.paramName, 3, 224072935831239553)], [], [], [], 0, [(224072935831239553, .paramName)]⟩
private def docState170 : LState := ⟨[(.argsMore, 1, 2251799813685376), (.call, 3, 224072935831239553)], [], [(7, 196), (51, 139)], [], 2251799813685376, []⟩
private def docState171 : LState := ⟨[(.paramStr, 3, 224072935831239553)], [], [], [], 0, [(224072935831239553, .paramStr)]⟩
private def docState172 : LState := ⟨[(.paramRaw, 3, 224072935831239553)], [], [], [], 0, [(224072935831239553, .paramRaw)]⟩
private def docState173 : LState := ⟨[(.argsMore, 3, 2251799813685888)], [], [], [], 0, [(2251799813685888, .argsMore)]⟩
private def docState174 : LState := ⟨[(.paramsMore, 1, 2251799813689344), (.fcnE, 3, 224072935831239553), (.fcnB, 3, 224072935831239553)], [(12, 128)], [(12, 197), (51, 132)], [(12, 198)], 2251799813689344, []⟩
private def docKernel47 : List (Pr × Nat × Nat) := [(.call, 4, 220676406974079233), (.cellBlock, 4, 220676381741154305), (.cellBracketed, 4, 220676381741154305), (.cellNumber, 4, 220676381741154305), (.cellStr, 4, 220676381741154305), (.cellRaw, 4, 220676381741154305), (.cellName, 4, 220676381741154305), (.cellRepl, 4, 220676381741154305)]
private def docState175 : LState := ⟨docKernel47, [], [(54, 199)], [], 18014398509481984, [(220676406974079233, .call)]⟩
private def docState176 : LState := ⟨[(.namedE, 4, 220676381741154305), (.namedB, 4, 220676381741154305)], [(9, 2251799813689344), (10, 2251799813689344), (22, 2251799813689344)], [(2, 159), (3, 160), (5, 158)], [(9, 200), (10, 69), (22, 68)], 44, [(2251799813689344, .empty)]⟩
private def docKernel48 : List (Pr × Nat × Nat) := [(.get, 4, 224072935831239553), (.to1, 4, 224072935831239553), (.to2, 4, 224072935831239553), (.to3, 4, 224072935831239553)]
private def docState177 : LState := ⟨docKernel48, [], [(49, 202), (54, 201)], [], 18577348462903296, [(224072935831239553, .get)]⟩
private def docGotos47 : List (Nat × Nat) := [(5, 36), (11, 203), (20, 33), (21, 34)]
private def docState178 : LState := ⟨[(.to5, 4, 224072935831239553)], docClos3, docShifts5, docGotos47, 544061224141950, []⟩
private def docGotos48 : List (Nat × Nat) := [(5, 36), (11, 204), (20, 33), (21, 34)]
private def docState179 : LState := ⟨[(.if1, 4, 224072935831239553), (.if2, 4, 224072935831239553)], docClos3, docShifts5, docGotos48, 544061224141950, []⟩
private def docGotos49 : List (Nat × Nat) := [(5, 36), (11, 205), (20, 33), (21, 34)]
private def docState180 : LState := ⟨[(.while_, 4, 224072935831239553)], docClos3, docShifts5, docGotos49, 544061224141950, []⟩
private def docGotos50 : List (Nat × Nat) := [(5, 36), (11, 206), (20, 33), (21, 34)]
private def docState181 : LState := ⟨[(.doUntil, 4, 224072935831239553)], docClos4, docShifts5, docGotos50, 544061224141950, []⟩
private def docClos13 : List (Nat × Nat) := [(5, 4503624860295424), (11, 4503624860295424), (20, 6755424673980672), (21, 6755424673980672)]
private def docGotos51 : List (Nat × Nat) := [(5, 36), (11, 207), (20, 33), (21, 34)]
private def docState182 : LState := ⟨[(.for_, 4, 224072935831239553)], docClos13, docShifts5, docGotos51, 544061224141950, []⟩
private def docState183 : LState := ⟨[(.pairName, 4, 224072935831239553)], [(10, 128)], [(2, 159), (3, 160), (5, 158)], [(10, 208)], 44, []⟩
private def docState184 : LState := ⟨[(.pairStr, 4, 224072935831239553)], [(10, 128)], [(2, 159), (3, 160), (5, 158)], [(10, 209)], 44, []⟩
private def docState185 : LState := ⟨[(.pairRaw, 4, 224072935831239553)], [(10, 128)], [(2, 159), (3, 160), (5, 158)], [(10, 210)], 44, []⟩
private def docGotos52 : List (Nat × Nat) := [(5, 36), (11, 211), (20, 33), (21, 34)]
private def docState186 : LState := ⟨[(.each1, 4, 224072935831239553)], docClos3, docShifts5, docGotos52, 544061224141950, []⟩
private def docState187 : LState := ⟨[(.each2, 4, 224072935831239553)], [(10, 128)], [(2, 159), (3, 160), (5, 158)], [(10, 212)], 44, []⟩
private def docState188 : LState := ⟨[(.cast1, 4, 224072935831239553)], [], [(10, 213)], [], 1024, []⟩
private def docState189 : LState := ⟨[(.cast2, 4, 224072935831239553)], [(10, 128)], [(2, 159), (3, 160), (5, 158)], [(10, 214)], 44, []⟩
private def docGotos53 : List (Nat × Nat) := [(5, 36), (11, 215), (20, 33), (21, 34)]
private def docState190 : LState := ⟨[(.ifnn1, 4, 224072935831239553), (.ifnn2, 4, 224072935831239553)], docClos3, docShifts5, docGotos53, 544061224141950, []⟩
private def docState191 : LState := ⟨[(.unpack1, 4, 224072935831239553), (.unpack2, 4, 224072935831239553)], [(9, 2251799813685376), (10, 2251799813685376), (22, 2251799813685376)], [(2, 159), (3, 160), (5, 158)], [(9, 216), (10, 69), (22, 68)], 44, [(2251799813685376, .empty)]⟩
private def docGotos54 : List (Nat × Nat) := [(5, 36), (11, 217), (20, 33), (21, 34)]
private def docState192 : LState := ⟨[(.group, 3, 224072935831239553), (.try2, 4, 224072935831239553)], docClos3, docShifts5, docGotos54, 544061224141950, [(224072935831223169, .group)]⟩
private def docGotos55 : List (Nat × Nat) := [(5, 36), (11, 218), (20, 33), (21, 34)]
private def docState193 : LState := ⟨[(.try3, 4, 224072935831239553)], docClos3, docShifts5, docGotos55, 544061224141950, []⟩
private def docGotos56 : List (Nat × Nat) := [(5, 36), (11, 219), (20, 33), (21, 34)]
private def docState194 : LState := ⟨[(.genSet, 5, 224072935831239553)], docClos3, docShifts5, docGotos56, 544061224141950, []⟩
private def docKernel49 : List (Pr × Nat × Nat) := [(.argsMore, 1, 2251799813685376), (.cellBlock, 3, 220676381741154305), (.cellBracketed, 3, 220676381741154305), (.cellNumber, 3, 220676381741154305), (.cellStr, 3, 220676381741154305), (.cellRaw, 3, 220676381741154305), (.cellName, 3, 220676381741154305), (.cellRepl, 3, 220676381741154305)]
private def docState195 : LState := ⟨docKernel49, [], [(7, 220), (51, 139)], [], 2251799813685376, []⟩
private def docState196 : LState := ⟨[(.call, 4, 224072935831239553)], [], [], [], 0, [(224072935831239553, .call)]⟩
private def docGotos57 : List (Nat × Nat) := [(5, 36), (11, 221), (20, 33), (21, 34)]
private def docState197 : LState := ⟨[(.rettype, 1, 128)], docClos4, docShifts5, docGotos57, 544061224141950, []⟩
private def docState198 : LState := ⟨[(.fcnE, 4, 224072935831239553), (.fcnB, 4, 224072935831239553)], [], [(7, 222)], [], 128, []⟩
private def docKernel50 : List (Pr × Nat × Nat) := [(.cellBlock, 5, 220676381741154305), (.cellBracketed, 5, 220676381741154305), (.cellNumber, 5, 220676381741154305), (.cellStr, 5, 220676381741154305), (.cellRaw, 5, 220676381741154305), (.cellName, 5, 220676381741154305), (.cellRepl, 5, 220676381741154305)]
private def docShifts17 : List (Nat × Nat) := [(1, 225), (2, 226), (3, 227), (4, 229), (5, 228), (8, 14), (10, 13)]
private def docState199 : LState := ⟨docKernel50, [(5, 220676381741154305), (6, 220676381741154305)], docShifts17, [(5, 223), (6, 224)], 1342, []⟩
private def docState200 : LState := ⟨[(.paramsMore, 1, 2251799813689344), (.namedE, 5, 220676381741154305), (.namedB, 5, 220676381741154305)], [(12, 128)], [(12, 197), (51, 132)], [(12, 230)], 2251799813689344, []⟩
private def docGotos58 : List (Nat × Nat) := [(5, 36), (11, 231), (20, 33), (21, 34)]
private def docState201 : LState := ⟨[(.to1, 5, 224072935831239553)], docClos3, docShifts5, docGotos58, 544061224141950, []⟩
private def docGotos59 : List (Nat × Nat) := [(5, 36), (6, 76), (7, 232), (10, 75), (11, 74), (13, 77), (20, 33), (21, 34)]
private def docState202 : LState := ⟨[(.to2, 5, 224072935831239553), (.to3, 5, 224072935831239553)], docClos9, docShifts3, docGotos59, 544095583880574, []⟩
private def docKernel51 : List (Pr × Nat × Nat) := [((.bin .or), 1, 224072935831239553), ((.bin .xor), 1, 224072935831239553), ((.bin .and), 1, 224072935831239553), ((.bin .eq), 1, 224072935831239553), ((.bin .ne), 1, 224072935831239553), ((.bin .lt), 1, 224072935831239553), ((.bin .le), 1, 224072935831239553), ((.bin .gt), 1, 224072935831239553), ((.bin .ge), 1, 224072935831239553), ((.bin .bitor), 1, 224072935831239553), ((.bin .bitxor), 1, 224072935831239553), ((.bin .bitand), 1, 224072935831239553), ((.bin .plus), 1, 224072935831239553), ((.bin .minus), 1, 224072935831239553), ((.bin .times), 1, 224072935831239553), ((.bin .fdiv), 1, 224072935831239553), ((.bin .idiv), 1, 224072935831239553), ((.bin .mod), 1, 224072935831239553), ((.bin .rem), 1, 224072935831239553), ((.bin .pow), 1, 224072935831239553), (.genSet, 1, 224072935831239553), (.genGet, 1, 224072935831239553), (.to5, 5, 224072935831239553)]
private def docState203 : LState := ⟨docKernel51, [], docShifts1, [], 25232924928, [(224072910598314625, .to5)]⟩
private def docKernel52 : List (Pr × Nat × Nat) := [((.bin .or), 1, 224072935831239553), ((.bin .xor), 1, 224072935831239553), ((.bin .and), 1, 224072935831239553), ((.bin .eq), 1, 224072935831239553), ((.bin .ne), 1, 224072935831239553), ((.bin .lt), 1, 224072935831239553), ((.bin .le), 1, 224072935831239553), ((.bin .gt), 1, 224072935831239553), ((.bin .ge), 1, 224072935831239553), ((.bin .bitor), 1, 224072935831239553), ((.bin .bitxor), 1, 224072935831239553), ((.bin .bitand), 1, 224072935831239553), ((.bin .plus), 1, 224072935831239553), ((.bin .minus), 1, 224072935831239553), ((.bin .times), 1, 224072935831239553), ((.bin .fdiv), 1, 224072935831239553), ((.bin .idiv), 1, 224072935831239553), ((.bin .mod), 1, 224072935831239553), ((.bin .rem), 1, 224072935831239553), ((.bin .pow), 1, 224072935831239553), (.if1, 5, 224072935831239553), (.if2, 5, 224072935831239553), (.genSet, 1, 224072935831239553), (.genGet, 1, 224072935831239553)]
private def docShifts18 : List (Nat × Nat) := [(8, 61), (13, 53), (14, 54), (15, 55), (16, 56), (17, 58), (18, 59), (19, 60), (20, 44), (21, 45), (22, 46), (23, 47), (24, 48), (25, 49), (26, 43), (27, 41), (28, 42), (30, 52), (31, 50), (32, 51), (34, 57), (37, 233)]
private def docState204 : LState := ⟨docKernel52, [], docShifts18, [], 162671878400, [(224072773159361153, .if1)]⟩
private def docKernel53 : List (Pr × Nat × Nat) := [((.bin .or), 1, 224072935831239553), ((.bin .xor), 1, 224072935831239553), ((.bin .and), 1, 224072935831239553), ((.bin .eq), 1, 224072935831239553), ((.bin .ne), 1, 224072935831239553), ((.bin .lt), 1, 224072935831239553), ((.bin .le), 1, 224072935831239553), ((.bin .gt), 1, 224072935831239553), ((.bin .ge), 1, 224072935831239553), ((.bin .bitor), 1, 224072935831239553), ((.bin .bitxor), 1, 224072935831239553), ((.bin .bitand), 1, 224072935831239553), ((.bin .plus), 1, 224072935831239553), ((.bin .minus), 1, 224072935831239553), ((.bin .times), 1, 224072935831239553), ((.bin .fdiv), 1, 224072935831239553), ((.bin .idiv), 1, 224072935831239553), ((.bin .mod), 1, 224072935831239553), ((.bin .rem), 1, 224072935831239553), ((.bin .pow), 1, 224072935831239553), (.while_, 5, 224072935831239553), (.genSet, 1, 224072935831239553), (.genGet, 1, 224072935831239553)]
private def docState205 : LState := ⟨docKernel53, [], docShifts1, [], 25232924928, [(224072910598314625, .while_)]⟩
private def docKernel54 : List (Pr × Nat × Nat) := [((.bin .or), 1, 25232925056), ((.bin .xor), 1, 25232925056), ((.bin .and), 1, 25232925056), ((.bin .eq), 1, 25232925056), ((.bin .ne), 1, 25232925056), ((.bin .lt), 1, 25232925056), ((.bin .le), 1, 25232925056), ((.bin .gt), 1, 25232925056), ((.bin .ge), 1, 25232925056), ((.bin .bitor), 1, 25232925056), ((.bin .bitxor), 1, 25232925056), ((.bin .bitand), 1, 25232925056), ((.bin .plus), 1, 25232925056), ((.bin .minus), 1, 25232925056), ((.bin .times), 1, 25232925056), ((.bin .fdiv), 1, 25232925056), ((.bin .idiv), 1, 25232925056), ((.bin .mod), 1, 25232925056), ((.bin .rem), 1, 25232925056), ((.bin .pow), 1, 25232925056), (.doUntil, 5, 224072935831239553), (.genSet, 1, 25232925056), (.genGet, 1, 25232925056)]
private def docShifts19 : List (Nat × Nat) := [(7, 234), (8, 61), (13, 53), (14, 54), (15, 55), (16, 56), (17, 58), (18, 59), (19, 60), (20, 44), (21, 45), (22, 46), (23, 47), (24, 48), (25, 49), (26, 43), (27, 41), (28, 42), (30, 52), (31, 50), (32, 51), (34, 57)]
private def docState206 : LState := ⟨docKernel54, [], docShifts19, [], 25232925056, []⟩
private def docKernel55 : List (Pr × Nat × Nat) := [((.bin .or), 1, 4503624860295424), ((.bin .xor), 1, 4503624860295424), ((.bin .and), 1, 4503624860295424), ((.bin .eq), 1, 4503624860295424), ((.bin .ne), 1, 4503624860295424), ((.bin .lt), 1, 4503624860295424), ((.bin .le), 1, 4503624860295424), ((.bin .gt), 1, 4503624860295424), ((.bin .ge), 1, 4503624860295424), ((.bin .bitor), 1, 4503624860295424), ((.bin .bitxor), 1, 4503624860295424), ((.bin .bitand), 1, 4503624860295424), ((.bin .plus), 1, 4503624860295424), ((.bin .minus), 1, 4503624860295424), ((.bin .times), 1, 4503624860295424), ((.bin .fdiv), 1, 4503624860295424), ((.bin .idiv), 1, 4503624860295424), ((.bin .mod), 1, 4503624860295424), ((.bin .rem), 1, 4503624860295424), ((.bin .pow), 1, 4503624860295424), (.for_, 5, 224072935831239553), (.genSet, 1, 4503624860295424), (.genGet, 1, 4503624860295424)]
private def docShifts20 : List (Nat × Nat) := [(8, 61), (13, 53), (14, 54), (15, 55), (16, 56), (17, 58), (18, 59), (19, 60), (20, 44), (21, 45), (22, 46), (23, 47), (24, 48), (25, 49), (26, 43), (27, 41), (28, 42), (30, 52), (31, 50), (32, 51), (34, 57), (52, 235)]
private def docState207 : LState := ⟨docKernel55, [], docShifts20, [], 4503624860295424, []⟩
private def docState208 : LState := ⟨[(.pairName, 5, 224072935831239553)], [], [(7, 236)], [], 128, []⟩
private def docState209 : LState := ⟨[(.pairStr, 5, 224072935831239553)], [], [(7, 237)], [], 128, []⟩
private def docState210 : LState := ⟨[(.pairRaw, 5, 224072935831239553)], [], [(7, 238)], [], 128, []⟩
private def docKernel56 : List (Pr × Nat × Nat) := [((.bin .or), 1, 224072935831239553), ((.bin .xor), 1, 224072935831239553), ((.bin .and), 1, 224072935831239553), ((.bin .eq), 1, 224072935831239553), ((.bin .ne), 1, 224072935831239553), ((.bin .lt), 1, 224072935831239553), ((.bin .le), 1, 224072935831239553), ((.bin .gt), 1, 224072935831239553), ((.bin .ge), 1, 224072935831239553), ((.bin .bitor), 1, 224072935831239553), ((.bin .bitxor), 1, 224072935831239553), ((.bin .bitand), 1, 224072935831239553), ((.bin .plus), 1, 224072935831239553), ((.bin .minus), 1, 224072935831239553), ((.bin .times), 1, 224072935831239553), ((.bin .fdiv), 1, 224072935831239553), ((.bin .idiv), 1, 224072935831239553), ((.bin .mod), 1, 224072935831239553), ((.bin .rem), 1, 224072935831239553), ((.bin .pow), 1, 224072935831239553), (.each1, 5, 224072935831239553), (.genSet, 1, 224072935831239553), (.genGet, 1, 224072935831239553)]
private def docState211 : LState := ⟨docKernel56, [], docShifts1, [], 25232924928, [(224072910598314625, .each1)]⟩
private def docState212 : LState := ⟨[(.each2, 5, 224072935831239553)], [], [(7, 239)], [], 128, []⟩
private def docState213 : LState := ⟨[(.cast1, 5, 224072935831239553)], [(18, 17592186046464), (19, 17592186046464)], [(44, 240)], [(18, 241), (19, 242)], 17592186044416, []⟩
private def docState214 : LState := ⟨[(.cast2, 5, 224072935831239553)], [], [(7, 243)], [], 128, []⟩
private def docKernel57 : List (Pr × Nat × Nat) := [((.bin .or), 1, 224072935831239553), ((.bin .xor), 1, 224072935831239553), ((.bin .and), 1, 224072935831239553), ((.bin .eq), 1, 224072935831239553), ((.bin .ne), 1, 224072935831239553), ((.bin .lt), 1, 224072935831239553), ((.bin .le), 1, 224072935831239553), ((.bin .gt), 1, 224072935831239553), ((.bin .ge), 1, 224072935831239553), ((.bin .bitor), 1, 224072935831239553), ((.bin .bitxor), 1, 224072935831239553), ((.bin .bitand), 1, 224072935831239553), ((.bin .plus), 1, 224072935831239553), ((.bin .minus), 1, 224072935831239553), ((.bin .times), 1, 224072935831239553), ((.bin .fdiv), 1, 224072935831239553), ((.bin .idiv), 1, 224072935831239553), ((.bin .mod), 1, 224072935831239553), ((.bin .rem), 1, 224072935831239553), ((.bin .pow), 1, 224072935831239553), (.ifnn1, 5, 224072935831239553), (.ifnn2, 5, 224072935831239553), (.genSet, 1, 224072935831239553), (.genGet, 1, 224072935831239553)]
private def docShifts21 : List (Nat × Nat) := [(8, 61), (13, 53), (14, 54), (15, 55), (16, 56), (17, 58), (18, 59), (19, 60), (20, 44), (21, 45), (22, 46), (23, 47), (24, 48), (25, 49), (26, 43), (27, 41), (28, 42), (30, 52), (31, 50), (32, 51), (34, 57), (37, 244)]
private def docState215 : LState := ⟨docKernel57, [], docShifts21, [], 162671878400, [(224072773159361153, .ifnn1)]⟩
private def docState216 : LState := ⟨[(.paramsMore, 1, 2251799813685376), (.unpack1, 5, 224072935831239553), (.unpack2, 5, 224072935831239553)], [], [(7, 245), (51, 132)], [], 2251799813685376, []⟩
private def docKernel58 : List (Pr × Nat × Nat) := [((.bin .or), 1, 224072935831239553), ((.bin .xor), 1, 224072935831239553), ((.bin .and), 1, 224072935831239553), ((.bin .eq), 1, 224072935831239553), ((.bin .ne), 1, 224072935831239553), ((.bin .lt), 1, 224072935831239553), ((.bin .le), 1, 224072935831239553), ((.bin .gt), 1, 224072935831239553), ((.bin .ge), 1, 224072935831239553), ((.bin .bitor), 1, 224072935831239553), ((.bin .bitxor), 1, 224072935831239553), ((.bin .bitand), 1, 224072935831239553), ((.bin .plus), 1, 224072935831239553), ((.bin .minus), 1, 224072935831239553), ((.bin .times), 1, 224072935831239553), ((.bin .fdiv), 1, 224072935831239553), ((.bin .idiv), 1, 224072935831239553), ((.bin .mod), 1, 224072935831239553), ((.bin .rem), 1, 224072935831239553), ((.bin .pow), 1, 224072935831239553), (.try2, 5, 224072935831239553), (.genSet, 1, 224072935831239553), (.genGet, 1, 224072935831239553)]
private def docState217 : LState := ⟨docKernel58, [], docShifts1, [], 25232924928, [(224072910598314625, .try2)]⟩
private def docKernel59 : List (Pr × Nat × Nat) := [((.bin .or), 1, 224072935831239553), ((.bin .xor), 1, 224072935831239553), ((.bin .and), 1, 224072935831239553), ((.bin .eq), 1, 224072935831239553), ((.bin .ne), 1, 224072935831239553), ((.bin .lt), 1, 224072935831239553), ((.bin .le), 1, 224072935831239553), ((.bin .gt), 1, 224072935831239553), ((.bin .ge), 1, 224072935831239553), ((.bin .bitor), 1, 224072935831239553), ((.bin .bitxor), 1, 224072935831239553), ((.bin .bitand), 1, 224072935831239553), ((.bin .plus), 1, 224072935831239553), ((.bin .minus), 1, 224072935831239553), ((.bin .times), 1, 224072935831239553), ((.bin .fdiv), 1, 224072935831239553), ((.bin .idiv), 1, 224072935831239553), ((.bin .mod), 1, 224072935831239553), ((.bin .rem), 1, 224072935831239553), ((.bin .pow), 1, 224072935831239553), (.try3, 5, 224072935831239553), (.genSet, 1, 224072935831239553), (.genGet, 1, 224072935831239553)]
private def docState218 : LState := ⟨docKernel59, [], docShifts1, [], 25232924928, [(224072910598314625, .try3)]⟩
private def docKernel60 : List (Pr × Nat × Nat) := [((.bin .or), 1, 224072935831239553), ((.bin .xor), 1, 224072935831239553), ((.bin .and), 1, 224072935831239553), ((.bin .eq), 1, 224072935831239553), ((.bin .ne), 1, 224072935831239553), ((.bin .lt), 1, 224072935831239553), ((.bin .le), 1, 224072935831239553), ((.bin .gt), 1, 224072935831239553), ((.bin .ge), 1, 224072935831239553), ((.bin .bitor), 1, 224072935831239553), ((.bin .bitxor), 1, 224072935831239553), ((.bin .bitand), 1, 224072935831239553), ((.bin .plus), 1, 224072935831239553), ((.bin .minus), 1, 224072935831239553), ((.bin .times), 1, 224072935831239553), ((.bin .fdiv), 1, 224072935831239553), ((.bin .idiv), 1, 224072935831239553), ((.bin .mod), 1, 224072935831239553), ((.bin .rem), 1, 224072935831239553), ((.bin .pow), 1, 224072935831239553), (.genSet, 1, 224072935831239553), (.genSet, 6, 224072935831239553), (.genGet, 1, 224072935831239553)]
private def docState219 : LState := ⟨docKernel60, [], docShifts1, [], 25232924928, [(224072910598314625, .genSet)]⟩
private def docKernel61 : List (Pr × Nat × Nat) := [(.cellBlock, 4, 220676381741154305), (.cellBracketed, 4, 220676381741154305), (.cellNumber, 4, 220676381741154305), (.cellStr, 4, 220676381741154305), (.cellRaw, 4, 220676381741154305), (.cellName, 4, 220676381741154305), (.cellRepl, 4, 220676381741154305)]
private def docState220 : LState := ⟨docKernel61, [], [(54, 199)], [], 18014398509481984, []⟩
private def docKernel62 : List (Pr × Nat × Nat) := [((.bin .or), 1, 25232925056), ((.bin .xor), 1, 25232925056), ((.bin .and), 1, 25232925056), ((.bin .eq), 1, 25232925056), ((.bin .ne), 1, 25232925056), ((.bin .lt), 1, 25232925056), ((.bin .le), 1, 25232925056), ((.bin .gt), 1, 25232925056), ((.bin .ge), 1, 25232925056), ((.bin .bitor), 1, 25232925056), ((.bin .bitxor), 1, 25232925056), ((.bin .bitand), 1, 25232925056), ((.bin .plus), 1, 25232925056), ((.bin .minus), 1, 25232925056), ((.bin .times), 1, 25232925056), ((.bin .fdiv), 1, 25232925056), ((.bin .idiv), 1, 25232925056), ((.bin .mod), 1, 25232925056), ((.bin .rem), 1, 25232925056), ((.bin .pow), 1, 25232925056), (.rettype, 2, 128), (.genSet, 1, 25232925056), (.genGet, 1, 25232925056)]
private def docState221 : LState := ⟨docKernel62, [], docShifts1, [], 25232924928, [(128, .rettype)]⟩
private def docGotos60 : List (Nat × Nat) := [(5, 247), (11, 246), (20, 33), (21, 34)]
private def docState222 : LState := ⟨[(.fcnE, 5, 224072935831239553), (.fcnB, 5, 224072935831239553)], docClos3, docShifts5, docGotos60, 544061224141950, []⟩
private def docState223 : LState := ⟨[(.cellBlock, 6, 220676381741154305)], [], [], [], 0, [(220676381741154305, .cellBlock)]⟩
private def docState224 : LState := ⟨[(.cellBracketed, 6, 220676381741154305)], [], [], [], 0, [(220676381741154305, .cellBracketed)]⟩
private def docState225 : LState := ⟨[(.cellNumber, 6, 220676381741154305)], [], [], [], 0, [(220676381741154305, .cellNumber)]⟩
private def docState226 : LState := ⟨[(.cellStr, 6, 220676381741154305)], [], [], [], 0, [(220676381741154305, .cellStr)]⟩
private def docState227 : LState := ⟨[(.cellRaw, 6, 220676381741154305)], [], [], [], 0, [(220676381741154305, .cellRaw)]⟩
private def docState228 : LState := ⟨[(.cellName, 6, 220676381741154305)], [], [], [], 0, [(220676381741154305, .cellName)]⟩
private def docState229 : LState := ⟨[(.cellRepl, 6, 220676381741154305)], [], [], [], 0, [(220676381741154305, .cellRepl)]⟩
private def docState230 : LState := ⟨[(.namedE, 6, 220676381741154305), (.namedB, 6, 220676381741154305)], [], [(7, 248)], [], 128, []⟩
private def docKernel63 : List (Pr × Nat × Nat) := [((.bin .or), 1, 224072935831239553), ((.bin .xor), 1, 224072935831239553), ((.bin .and), 1, 224072935831239553), ((.bin .eq), 1, 224072935831239553), ((.bin .ne), 1, 224072935831239553), ((.bin .lt), 1, 224072935831239553), ((.bin .le), 1, 224072935831239553), ((.bin .gt), 1, 224072935831239553), ((.bin .ge), 1, 224072935831239553), ((.bin .bitor), 1, 224072935831239553), ((.bin .bitxor), 1, 224072935831239553), ((.bin .bitand), 1, 224072935831239553), ((.bin .plus), 1, 224072935831239553), ((.bin .minus), 1, 224072935831239553), ((.bin .times), 1, 224072935831239553), ((.bin .fdiv), 1, 224072935831239553), ((.bin .idiv), 1, 224072935831239553), ((.bin .mod), 1, 224072935831239553), ((.bin .rem), 1, 224072935831239553), ((.bin .pow), 1, 224072935831239553), (.genSet, 1, 224072935831239553), (.genGet, 1, 224072935831239553), (.to1, 6, 224072935831239553)]
private def docState231 : LState := ⟨docKernel63, [], docShifts1, [], 25232924928, [(224072910598314625, .to1)]⟩
private def docState232 : LState := ⟨[(.to2, 6, 224072935831239553), (.to3, 6, 224072935831239553)], [], [(50, 249)], [], 1125899906842624, [(222947035924396929, .to2)]⟩
private def docGotos61 : List (Nat × Nat) := [(5, 36), (11, 250), (20, 33), (21, 34)]
private def docState233 : LState := ⟨[(.if2, 6, 224072935831239553)], docClos3, docShifts5, docGotos61, 544061224141950, []⟩
private def docState234 : LState := ⟨[(.doUntil, 6, 224072935831239553)], [], [], [], 0, [(224072935831239553, .doUntil)]⟩
private def docState235 : LState := ⟨[(.for_, 6, 224072935831239553)], [(20, 2251799813685376), (21, 2251799813685376)], [(5, 102)], [(20, 33), (21, 251)], 32, []⟩
private def docGotos62 : List (Nat × Nat) := [(5, 36), (11, 252), (20, 33), (21, 34)]
private def docState236 : LState := ⟨[(.pairName, 6, 224072935831239553)], docClos3, docShifts5, docGotos62, 544061224141950, []⟩
private def docGotos63 : List (Nat × Nat) := [(5, 36), (11, 253), (20, 33), (21, 34)]
private def docState237 : LState := ⟨[(.pairStr, 6, 224072935831239553)], docClos3, docShifts5, docGotos63, 544061224141950, []⟩
private def docGotos64 : List (Nat × Nat) := [(5, 36), (11, 254), (20, 33), (21, 34)]
private def docState238 : LState := ⟨[(.pairRaw, 6, 224072935831239553)], docClos3, docShifts5, docGotos64, 544061224141950, []⟩
private def docGotos65 : List (Nat × Nat) := [(5, 36), (11, 255), (20, 33), (21, 34)]
private def docState239 : LState := ⟨[(.each2, 6, 224072935831239553)], docClos3, docShifts5, docGotos65, 544061224141950, []⟩
private def docState240 : LState := ⟨[(.asblock, 1, 17592186046464)], [], [(6, 256)], [], 64, []⟩
private def docState241 : LState := ⟨[(.asblocks1, 1, 17592186046464)], [], [], [], 0, [(17592186046464, .asblocks1)]⟩
private def docState242 : LState := ⟨[(.asblocksMore, 1, 17592186046464), (.cast1, 6, 224072935831239553)], [(18, 17592186046464)], [(11, 258), (44, 240)], [(18, 257)], 17592186046464, []⟩
private def docState243 : LState := ⟨[(.cast2, 6, 224072935831239553)], [], [(10, 259)], [], 1024, []⟩
private def docGotos66 : List (Nat × Nat) := [(5, 36), (11, 260), (20, 33), (21, 34)]
private def docState244 : LState := ⟨[(.ifnn2, 6, 224072935831239553)], docClos3, docShifts5, docGotos66, 544061224141950, []⟩
private def docGotos67 : List (Nat × Nat) := [(5, 36), (11, 261), (20, 33), (21, 34)]
private def docState245 : LState := ⟨[(.unpack1, 6, 224072935831239553), (.unpack2, 6, 224072935831239553)], docClos3, docShifts5, docGotos67, 544061224141950, []⟩
private def docKernel64 : List (Pr × Nat × Nat) := [((.bin .or), 1, 224072935831239553), ((.bin .xor), 1, 224072935831239553), ((.bin .and), 1, 224072935831239553), ((.bin .eq), 1, 224072935831239553), ((.bin .ne), 1, 224072935831239553), ((.bin .lt), 1, 224072935831239553), ((.bin .le), 1, 224072935831239553), ((.bin .gt), 1, 224072935831239553), ((.bin .ge), 1, 224072935831239553), ((.bin .bitor), 1, 224072935831239553), ((.bin .bitxor), 1, 224072935831239553), ((.bin .bitand), 1, 224072935831239553), ((.bin .plus), 1, 224072935831239553), ((.bin .minus), 1, 224072935831239553), ((.bin .times), 1, 224072935831239553), ((.bin .fdiv), 1, 224072935831239553), ((.bin .idiv), 1, 224072935831239553), ((.bin .mod), 1, 224072935831239553), ((.bin .rem), 1, 224072935831239553), ((.bin .pow), 1, 224072935831239553), (.fcnE, 6, 224072935831239553), (.genSet, 1, 224072935831239553), (.genGet, 1, 224072935831239553)]
private def docState246 : LState := ⟨docKernel64, [], docShifts1, [], 25232924928, [(224072910598314625, .fcnE)]⟩
private def docState247 : LState := ⟨[(.fcnB, 6, 224072935831239553), (.sBlock, 1, 224072935831239553)], [], [], [], 0, [(224072935831239553, .fcnB)]⟩
private def docClos14 : List (Nat × Nat) := [(5, 220676406974079233), (11, 220676406974079233), (20, 222928206787764481), (21, 222928206787764481)]
private def docGotos68 : List (Nat × Nat) := [(5, 263), (11, 262), (20, 33), (21, 34)]
private def docState248 : LState := ⟨[(.namedE, 7, 220676381741154305), (.namedB, 7, 220676381741154305)], docClos14, docShifts5, docGotos68, 544061224141950, []⟩
private def docGotos69 : List (Nat × Nat) := [(5, 36), (11, 264), (20, 33), (21, 34)]
private def docState249 : LState := ⟨[(.to3, 7, 224072935831239553)], docClos3, docShifts5, docGotos69, 544061224141950, []⟩
private def docKernel65 : List (Pr × Nat × Nat) := [((.bin .or), 1, 224072935831239553), ((.bin .xor), 1, 224072935831239553), ((.bin .and), 1, 224072935831239553), ((.bin .eq), 1, 224072935831239553), ((.bin .ne), 1, 224072935831239553), ((.bin .lt), 1, 224072935831239553), ((.bin .le), 1, 224072935831239553), ((.bin .gt), 1, 224072935831239553), ((.bin .ge), 1, 224072935831239553), ((.bin .bitor), 1, 224072935831239553), ((.bin .bitxor), 1, 224072935831239553), ((.bin .bitand), 1, 224072935831239553), ((.bin .plus), 1, 224072935831239553), ((.bin .minus), 1, 224072935831239553), ((.bin .times), 1, 224072935831239553), ((.bin .fdiv), 1, 224072935831239553), ((.bin .idiv), 1, 224072935831239553), ((.bin .mod), 1, 224072935831239553), ((.bin .rem), 1, 224072935831239553), ((.bin .pow), 1, 224072935831239553), (.if2, 7, 224072935831239553), (.genSet, 1, 224072935831239553), (.genGet, 1, 224072935831239553)]
private def docState250 : LState := ⟨docKernel65, [], docShifts1, [], 25232924928, [(224072910598314625, .if2)]⟩
private def docState251 : LState := ⟨[(.for_, 7, 224072935831239553), (.assignsMore, 1, 2251799813685376)], [], [(7, 265), (51, 101)], [], 2251799813685376, []⟩
private def docKernel66 : List (Pr × Nat × Nat) := [((.bin .or), 1, 224072935831239553), ((.bin .xor), 1, 224072935831239553), ((.bin .and), 1, 224072935831239553), ((.bin .eq), 1, 224072935831239553), ((.bin .ne), 1, 224072935831239553), ((.bin .lt), 1, 224072935831239553), ((.bin .le), 1, 224072935831239553), ((.bin .gt), 1, 224072935831239553), ((.bin .ge), 1, 224072935831239553), ((.bin .bitor), 1, 224072935831239553), ((.bin .bitxor), 1, 224072935831239553), ((.bin .bitand), 1, 224072935831239553), ((.bin .plus), 1, 224072935831239553), ((.bin .minus), 1, 224072935831239553), ((.bin .times), 1, 224072935831239553), ((.bin .fdiv), 1, 224072935831239553), ((.bin .idiv), 1, 224072935831239553), ((.bin .mod), 1, 224072935831239553), ((.bin .rem), 1, 224072935831239553), ((.bin .pow), 1, 224072935831239553), (.pairName, 7, 224072935831239553), (.genSet, 1, 224072935831239553), (.genGet, 1, 224072935831239553)]
private def docState252 : LState := ⟨docKernel66, [], docShifts1, [], 25232924928, [(224072910598314625, .pairName)]⟩
private def docKernel67 : List (Pr × Nat × Nat) := [((.bin .or), 1, 224072935831239553), ((.bin .xor), 1, 224072935831239553), ((.bin .and), 1, 224072935831239553), ((.bin .eq), 1, 224072935831239553), ((.bin .ne), 1, 224072935831239553), ((.bin .lt), 1, 224072935831239553), ((.bin .le), 1, 224072935831239553), ((.bin .gt), 1, 224072935831239553), ((.bin .ge), 1, 224072935831239553), ((.bin .bitor), 1, 224072935831239553), ((.bin .bitxor), 1, 224072935831239553), ((.bin .bitand), 1, 224072935831239553), ((.bin .plus), 1, 224072935831239553), ((.bin .minus), 1, 224072935831239553), ((.bin .times), 1, 224072935831239553), ((.bin .fdiv), 1, 224072935831239553), ((.bin .idiv), 1, 224072935831239553), ((.bin .mod), 1, 224072935831239553), ((.bin .rem), 1, 224072935831239553), ((.bin .pow), 1, 224072935831239553), (.pairStr, 7, 224072935831239553), (.genSet, 1, 224072935831239553), (.genGet, 1, 224072935831239553)]
private def docState253 : LState := ⟨docKernel67, [], docShifts1, [], 25232924928, [(224072910598314625, .pairStr)]⟩
private def docKernel68 : List (Pr × Nat × Nat) := [((.bin .or), 1, 224072935831239553), ((.bin .xor), 1, 224072935831239553), ((.bin .and), 1, 224072935831239553), ((.bin .eq), 1, 224072935831239553), ((.bin .ne), 1, 224072935831239553), ((.bin .lt), 1, 224072935831239553), ((.bin .le), 1, 224072935831239553), ((.bin .gt), 1, 224072935831239553), ((.bin .ge), 1, 224072935831239553), ((.bin .bitor), 1, 224072935831239553), ((.bin .bitxor), 1, 224072935831239553), ((.bin .bitand), 1, 224072935831239553), ((.bin .plus), 1, 224072935831239553), ((.bin .minus), 1, 224072935831239553), ((.bin .times), 1, 224072935831239553), ((.bin .fdiv), 1, 224072935831239553), ((.bin .idiv), 1, 224072935831239553), ((.bin .mod), 1, 224072935831239553), ((.bin .rem), 1, 224072935831239553), ((.bin .pow), 1, 224072935831239553), (.pairRaw, 7, 224072935831239553), (.genSet, 1, 224072935831239553), (.genGet, 1, 224072935831239553)]
private def docState254 : LState := ⟨docKernel68, [], docShifts1, [], 25232924928, [(224072910598314625, .pairRaw)]⟩
private def docKernel69 : List (Pr × Nat × Nat) := [((.bin .or), 1, 224072935831239553), ((.bin .xor), 1, 224072935831239553), ((.bin .and), 1, 224072935831239553), ((.bin .eq), 1, 224072935831239553), ((.bin .ne), 1, 224072935831239553), ((.bin .lt), 1, 224072935831239553), ((.bin .le), 1, 224072935831239553), ((.bin .gt), 1, 224072935831239553), ((.bin .ge), 1, 224072935831239553), ((.bin .bitor), 1, 224072935831239553), ((.bin .bitxor), 1, 224072935831239553), ((.bin .bitand), 1, 224072935831239553), ((.bin .plus), 1, 224072935831239553), ((.bin .minus), 1, 224072935831239553), ((.bin .times), 1, 224072935831239553), ((.bin .fdiv), 1, 224072935831239553), ((.bin .idiv), 1, 224072935831239553), ((.bin .mod), 1, 224072935831239553), ((.bin .rem), 1, 224072935831239553), ((.bin .pow), 1, 224072935831239553), (.each2, 7, 224072935831239553), (.genSet, 1, 224072935831239553), (.genGet, 1, 224072935831239553)]
private def docState255 : LState := ⟨docKernel69, [], docShifts1, [], 25232924928, [(224072910598314625, .each2)]⟩
private def docState256 : LState := ⟨[(.asblock, 2, 17592186046464)], [(10, 128)], [(2, 159), (3, 160), (5, 158)], [(10, 266)], 44, []⟩
private def docState257 : LState := ⟨[(.asblocksMore, 2, 17592186046464)], [], [], [], 0, [(17592186046464, .asblocksMore)]⟩
private def docState258 : LState := ⟨[(.cast1, 7, 224072935831239553)], [], [], [], 0, [(224072935831239553, .cast1)]⟩
private def docState259 : LState := ⟨[(.cast2, 7, 224072935831239553)], [(18, 17592186046464), (19, 17592186046464)], [(44, 240)], [(18, 241), (19, 267)], 17592186044416, []⟩
private def docKernel70 : List (Pr × Nat × Nat) := [((.bin .or), 1, 224072935831239553), ((.bin .xor), 1, 224072935831239553), ((.bin .and), 1, 224072935831239553), ((.bin .eq), 1, 224072935831239553), ((.bin .ne), 1, 224072935831239553), ((.bin .lt), 1, 224072935831239553), ((.bin .le), 1, 224072935831239553), ((.bin .gt), 1, 224072935831239553), ((.bin .ge), 1, 224072935831239553), ((.bin .bitor), 1, 224072935831239553), ((.bin .bitxor), 1, 224072935831239553), ((.bin .bitand), 1, 224072935831239553), ((.bin .plus), 1, 224072935831239553), ((.bin .minus), 1, 224072935831239553), ((.bin .times), 1, 224072935831239553), ((.bin .fdiv), 1, 224072935831239553), ((.bin .idiv), 1, 224072935831239553), ((.bin .mod), 1, 224072935831239553), ((.bin .rem), 1, 224072935831239553), ((.bin .pow), 1, 224072935831239553), (.ifnn2, 7, 224072935831239553), (.genSet, 1, 224072935831239553), (.genGet, 1, 224072935831239553)]
private def docState260 : LState := ⟨docKernel70, [], docShifts1, [], 25232924928, [(224072910598314625, .ifnn2)]⟩
private def docKernel71 : List (Pr × Nat × Nat) := [((.bin .or), 1, 224072935831239553), ((.bin .xor), 1, 224072935831239553), ((.bin .and), 1, 224072935831239553), ((.bin .eq), 1, 224072935831239553), ((.bin .ne), 1, 224072935831239553), ((.bin .lt), 1, 224072935831239553), ((.bin .le), 1, 224072935831239553), ((.bin .gt), 1, 224072935831239553), ((.bin .ge), 1, 224072935831239553), ((.bin .bitor), 1, 224072935831239553), ((.bin .bitxor), 1, 224072935831239553), ((.bin .bitand), 1, 224072935831239553), ((.bin .plus), 1, 224072935831239553), ((.bin .minus), 1, 224072935831239553), ((.bin .times), 1, 224072935831239553), ((.bin .fdiv), 1, 224072935831239553), ((.bin .idiv), 1, 224072935831239553), ((.bin .mod), 1, 224072935831239553), ((.bin .rem), 1, 224072935831239553), ((.bin .pow), 1, 224072935831239553), (.unpack1, 7, 224072935831239553), (.unpack2, 7, 224072935831239553), (.genSet, 1, 224072935831239553), (.genGet, 1, 224072935831239553)]
private def docShifts22 : List (Nat × Nat) := [(8, 61), (13, 53), (14, 54), (15, 55), (16, 56), (17, 58), (18, 59), (19, 60), (20, 44), (21, 45), (22, 46), (23, 47), (24, 48), (25, 49), (26, 43), (27, 41), (28, 42), (30, 52), (31, 50), (32, 51), (34, 57), (37, 268)]
private def docState261 : LState := ⟨docKernel71, [], docShifts22, [], 162671878400, [(224072773159361153, .unpack1)]⟩
private def docKernel72 : List (Pr × Nat × Nat) := [((.bin .or), 1, 220676406974079233), ((.bin .xor), 1, 220676406974079233), ((.bin .and), 1, 220676406974079233), ((.bin .eq), 1, 220676406974079233), ((.bin .ne), 1, 220676406974079233), ((.bin .lt), 1, 220676406974079233), ((.bin .le), 1, 220676406974079233), ((.bin .gt), 1, 220676406974079233), ((.bin .ge), 1, 220676406974079233), ((.bin .bitor), 1, 220676406974079233), ((.bin .bitxor), 1, 220676406974079233), ((.bin .bitand), 1, 220676406974079233), ((.bin .plus), 1, 220676406974079233), ((.bin .minus), 1, 220676406974079233), ((.bin .times), 1, 220676406974079233), ((.bin .fdiv), 1, 220676406974079233), ((.bin .idiv), 1, 220676406974079233), ((.bin .mod), 1, 220676406974079233), ((.bin .rem), 1, 220676406974079233), ((.bin .pow), 1, 220676406974079233), (.namedE, 8, 220676381741154305), (.genSet, 1, 220676406974079233), (.genGet, 1, 220676406974079233)]
private def docState262 : LState := ⟨docKernel72, [], docShifts1, [], 25232924928, [(220676381741154305, .namedE)]⟩
private def docState263 : LState := ⟨[(.namedB, 8, 220676381741154305), (.sBlock, 1, 220676406974079233)], [], [], [], 0, [(220676381741154305, .namedB), (25232924928, .sBlock)]⟩
private def docKernel73 : List (Pr × Nat × Nat) := [((.bin .or), 1, 224072935831239553), ((.bin .xor), 1, 224072935831239553), ((.bin .and), 1, 224072935831239553), ((.bin .eq), 1, 224072935831239553), ((.bin .ne), 1, 224072935831239553), ((.bin .lt), 1, 224072935831239553), ((.bin .le), 1, 224072935831239553), ((.bin .gt), 1, 224072935831239553), ((.bin .ge), 1, 224072935831239553), ((.bin .bitor), 1, 224072935831239553), ((.bin .bitxor), 1, 224072935831239553), ((.bin .bitand), 1, 224072935831239553), ((.bin .plus), 1, 224072935831239553), ((.bin .minus), 1, 224072935831239553), ((.bin .times), 1, 224072935831239553), ((.bin .fdiv), 1, 224072935831239553), ((.bin .idiv), 1, 224072935831239553), ((.bin .mod), 1, 224072935831239553), ((.bin .rem), 1, 224072935831239553), ((.bin .pow), 1, 224072935831239553), (.genSet, 1, 224072935831239553), (.genGet, 1, 224072935831239553), (.to3, 8, 224072935831239553)]
private def docState264 : LState := ⟨docKernel73, [], docShifts1, [], 25232924928, [(224072910598314625, .to3)]⟩
private def docGotos70 : List (Nat × Nat) := [(5, 36), (11, 269), (20, 33), (21, 34)]
private def docState265 : LState := ⟨[(.for_, 8, 224072935831239553)], docClos3, docShifts5, docGotos70, 544061224141950, []⟩
private def docState266 : LState := ⟨[(.asblock, 3, 17592186046464)], [], [(7, 270)], [], 128, []⟩
private def docState267 : LState := ⟨[(.asblocksMore, 1, 17592186046464), (.cast2, 8, 224072935831239553)], [(18, 17592186046464)], [(11, 271), (44, 240)], [(18, 257)], 17592186046464, []⟩
private def docGotos71 : List (Nat × Nat) := [(5, 36), (11, 272), (20, 33), (21, 34)]
private def docState268 : LState := ⟨[(.unpack2, 8, 224072935831239553)], docClos3, docShifts5, docGotos71, 544061224141950, []⟩
private def docKernel74 : List (Pr × Nat × Nat) := [((.bin .or), 1, 224072935831239553), ((.bin .xor), 1, 224072935831239553), ((.bin .and), 1, 224072935831239553), ((.bin .eq), 1, 224072935831239553), ((.bin .ne), 1, 224072935831239553), ((.bin .lt), 1, 224072935831239553), ((.bin .le), 1, 224072935831239553), ((.bin .gt), 1, 224072935831239553), ((.bin .ge), 1, 224072935831239553), ((.bin .bitor), 1, 224072935831239553), ((.bin .bitxor), 1, 224072935831239553), ((.bin .bitand), 1, 224072935831239553), ((.bin .plus), 1, 224072935831239553), ((.bin .minus), 1, 224072935831239553), ((.bin .times), 1, 224072935831239553), ((.bin .fdiv), 1, 224072935831239553), ((.bin .idiv), 1, 224072935831239553), ((.bin .mod), 1, 224072935831239553), ((.bin .rem), 1, 224072935831239553), ((.bin .pow), 1, 224072935831239553), (.for_, 9, 224072935831239553), (.genSet, 1, 224072935831239553), (.genGet, 1, 224072935831239553)]
private def docState269 : LState := ⟨docKernel74, [], docShifts1, [], 25232924928, [(224072910598314625, .for_)]⟩
private def docClos15 : List (Nat × Nat) := [(5, 17617418971392), (11, 17617418971392), (20, 2269417232656640), (21, 2269417232656640)]
private def docGotos72 : List (Nat × Nat) := [(5, 36), (11, 273), (20, 33), (21, 34)]
private def docState270 : LState := ⟨[(.asblock, 4, 17592186046464)], docClos15, docShifts5, docGotos72, 544061224141950, []⟩
private def docState271 : LState := ⟨[(.cast2, 9, 224072935831239553)], [], [], [], 0, [(224072935831239553, .cast2)]⟩
private def docKernel75 : List (Pr × Nat × Nat) := [((.bin .or), 1, 224072935831239553), ((.bin .xor), 1, 224072935831239553), ((.bin .and), 1, 224072935831239553), ((.bin .eq), 1, 224072935831239553), ((.bin .ne), 1, 224072935831239553), ((.bin .lt), 1, 224072935831239553), ((.bin .le), 1, 224072935831239553), ((.bin .gt), 1, 224072935831239553), ((.bin .ge), 1, 224072935831239553), ((.bin .bitor), 1, 224072935831239553), ((.bin .bitxor), 1, 224072935831239553), ((.bin .bitand), 1, 224072935831239553), ((.bin .plus), 1, 224072935831239553), ((.bin .minus), 1, 224072935831239553), ((.bin .times), 1, 224072935831239553), ((.bin .fdiv), 1, 224072935831239553), ((.bin .idiv), 1, 224072935831239553), ((.bin .mod), 1, 224072935831239553), ((.bin .rem), 1, 224072935831239553), ((.bin .pow), 1, 224072935831239553), (.unpack2, 9, 224072935831239553), (.genSet, 1, 224072935831239553), (.genGet, 1, 224072935831239553)]
private def docState272 : LState := ⟨docKernel75, [], docShifts1, [], 25232924928, [(224072910598314625, .unpack2)]⟩
private def docKernel76 : List (Pr × Nat × Nat) := [((.bin .or), 1, 17617418971392), ((.bin .xor), 1, 17617418971392), ((.bin .and), 1, 17617418971392), ((.bin .eq), 1, 17617418971392), ((.bin .ne), 1, 17617418971392), ((.bin .lt), 1, 17617418971392), ((.bin .le), 1, 17617418971392), ((.bin .gt), 1, 17617418971392), ((.bin .ge), 1, 17617418971392), ((.bin .bitor), 1, 17617418971392), ((.bin .bitxor), 1, 17617418971392), ((.bin .bitand), 1, 17617418971392), ((.bin .plus), 1, 17617418971392), ((.bin .minus), 1, 17617418971392), ((.bin .times), 1, 17617418971392), ((.bin .fdiv), 1, 17617418971392), ((.bin .idiv), 1, 17617418971392), ((.bin .mod), 1, 17617418971392), ((.bin .rem), 1, 17617418971392), ((.bin .pow), 1, 17617418971392), (.asblock, 5, 17592186046464), (.genSet, 1, 17617418971392), (.genGet, 1, 17617418971392)]
private def docState273 : LState := ⟨docKernel76, [], docShifts1, [], 25232924928, [(17592186046464, .asblock)]⟩

/-- The automaton. -/
def docAutomaton : Trie := (.node (.node (.node (.node (.node (.node (.node (.node (.node (.leaf docState0) (.leaf docState256)) (.leaf docState128)) (.node (.leaf docState64) (.leaf docState192))) (.node (.node (.leaf docState32) (.leaf docState160)) (.node (.leaf docState96) (.leaf docState224)))) (.node (.node (.node (.node (.leaf docState16) (.leaf docState272)) (.leaf docState144)) (.node (.leaf docState80) (.leaf docState208))) (.node (.node (.leaf docState48) (.leaf docState176)) (.node (.leaf docState112) (.leaf docState240))))) (.node (.node (.node (.node (.node (.leaf docState8) (.leaf docState264)) (.leaf docState136)) (.node (.leaf docState72) (.leaf docState200))) (.node (.node (.leaf docState40) (.leaf docState168)) (.node (.leaf docState104) (.leaf docState232)))) (.node (.node (.node (.leaf docState24) (.leaf docState152)) (.node (.leaf docState88) (.leaf docState216))) (.node (.node (.leaf docState56) (.leaf docState184)) (.node (.leaf docState120) (.leaf docState248)))))) (.node (.node (.node (.node (.node (.node (.leaf docState4) (.leaf docState260)) (.leaf docState132)) (.node (.leaf docState68) (.leaf docState196))) (.node (.node (.leaf docState36) (.leaf docState164)) (.node (.leaf docState100) (.leaf docState228)))) (.node (.node (.node (.leaf docState20) (.leaf docState148)) (.node (.leaf docState84) (.leaf docState212))) (.node (.node (.leaf docState52) (.leaf docState180)) (.node (.leaf docState116) (.leaf docState244))))) (.node (.node (.node (.node (.node (.leaf docState12) (.leaf docState268)) (.leaf docState140)) (.node (.leaf docState76) (.leaf docState204))) (.node (.node (.leaf docState44) (.leaf docState172)) (.node (.leaf docState108) (.leaf docState236)))) (.node (.node (.node (.leaf docState28) (.leaf docState156)) (.node (.leaf docState92) (.leaf docState220))) (.node (.node (.leaf docState60) (.leaf docState188)) (.node (.leaf docState124) (.leaf docState252))))))) (.node (.node (.node (.node (.node (.node (.node (.leaf docState2) (.leaf docState258)) (.leaf docState130)) (.node (.leaf docState66) (.leaf docState194))) (.node (.node (.leaf docState34) (.leaf docState162)) (.node (.leaf docState98) (.leaf docState226)))) (.node (.node (.node (.leaf docState18) (.leaf docState146)) (.node (.leaf docState82) (.leaf docState210))) (.node (.node (.leaf docState50) (.leaf docState178)) (.node (.leaf docState114) (.leaf docState242))))) (.node (.node (.node (.node (.node (.leaf docState10) (.leaf docState266)) (.leaf docState138)) (.node (.leaf docState74) (.leaf docState202))) (.node (.node (.leaf docState42) (.leaf docState170)) (.node (.leaf docState106) (.leaf docState234)))) (.node (.node (.node (.leaf docState26) (.leaf docState154)) (.node (.leaf docState90) (.leaf docState218))) (.node (.node (.leaf docState58) (.leaf docState186)) (.node (.leaf docState122) (.leaf docState250)))))) (.node (.node (.node (.node (.node (.node (.leaf docState6) (.leaf docState262)) (.leaf docState134)) (.node (.leaf docState70) (.leaf docState198))) (.node (.node (.leaf docState38) (.leaf docState166)) (.node (.leaf docState102) (.leaf docState230)))) (.node (.node (.node (.leaf docState22) (.leaf docState150)) (.node (.leaf docState86) (.leaf docState214))) (.node (.node (.leaf docState54) (.leaf docState182)) (.node (.leaf docState118) (.leaf docState246))))) (.node (.node (.node (.node (.node (.leaf docState14) (.leaf docState270)) (.leaf docState142)) (.node (.leaf docState78) (.leaf docState206))) (.node (.node (.leaf docState46) (.leaf docState174)) (.node (.leaf docState110) (.leaf docState238)))) (.node (.node (.node (.leaf docState30) (.leaf docState158)) (.node (.leaf docState94) (.leaf docState222))) (.node (.node (.leaf docState62) (.leaf docState190)) (.node (.leaf docState126) (.leaf docState254)))))))) (.node (.node (.node (.node (.node (.node (.node (.node (.leaf docState1) (.leaf docState257)) (.leaf docState129)) (.node (.leaf docState65) (.leaf docState193))) (.node (.node (.leaf docState33) (.leaf docState161)) (.node (.leaf docState97) (.leaf docState225)))) (.node (.node (.node (.node (.leaf docState17) (.leaf docState273)) (.leaf docState145)) (.node (.leaf docState81) (.leaf docState209))) (.node (.node (.leaf docState49) (.leaf docState177)) (.node (.leaf docState113) (.leaf docState241))))) (.node (.node (.node (.node (.node (.leaf docState9) (.leaf docState265)) (.leaf docState137)) (.node (.leaf docState73) (.leaf docState201))) (.node (.node (.leaf docState41) (.leaf docState169)) (.node (.leaf docState105) (.leaf docState233)))) (.node (.node (.node (.leaf docState25) (.leaf docState153)) (.node (.leaf docState89) (.leaf docState217))) (.node (.node (.leaf docState57) (.leaf docState185)) (.node (.leaf docState121) (.leaf docState249)))))) (.node (.node (.node (.node (.node (.node (.leaf docState5) (.leaf docState261)) (.leaf docState133)) (.node (.leaf docState69) (.leaf docState197))) (.node (.node (.leaf docState37) (.leaf docState165)) (.node (.leaf docState101) (.leaf docState229)))) (.node (.node (.node (.leaf docState21) (.leaf docState149)) (.node (.leaf docState85) (.leaf docState213))) (.node (.node (.leaf docState53) (.leaf docState181)) (.node (.leaf docState117) (.leaf docState245))))) (.node (.node (.node (.node (.node (.leaf docState13) (.leaf docState269)) (.leaf docState141)) (.node (.leaf docState77) (.leaf docState205))) (.node (.node (.leaf docState45) (.leaf docState173)) (.node (.leaf docState109) (.leaf docState237)))) (.node (.node (.node (.leaf docState29) (.leaf docState157)) (.node (.leaf docState93) (.leaf docState221))) (.node (.node (.leaf docState61) (.leaf docState189)) (.node (.leaf docState125) (.leaf docState253))))))) (.node (.node (.node (.node (.node (.node (.node (.leaf docState3) (.leaf docState259)) (.leaf docState131)) (.node (.leaf docState67) (.leaf docState195))) (.node (.node (.leaf docState35) (.leaf docState163)) (.node (.leaf docState99) (.leaf docState227)))) (.node (.node (.node (.leaf docState19) (.leaf docState147)) (.node (.leaf docState83) (.leaf docState211))) (.node (.node (.leaf docState51) (.leaf docState179)) (.node (.leaf docState115) (.leaf docState243))))) (.node (.node (.node (.node (.node (.leaf docState11) (.leaf docState267)) (.leaf docState139)) (.node (.leaf docState75) (.leaf docState203))) (.node (.node (.leaf docState43) (.leaf docState171)) (.node (.leaf docState107) (.leaf docState235)))) (.node (.node (.node (.leaf docState27) (.leaf docState155)) (.node (.leaf docState91) (.leaf docState219))) (.node (.node (.leaf docState59) (.leaf docState187)) (.node (.leaf docState123) (.leaf docState251)))))) (.node (.node (.node (.node (.node (.node (.leaf docState7) (.leaf docState263)) (.leaf docState135)) (.node (.leaf docState71) (.leaf docState199))) (.node (.node (.leaf docState39) (.leaf docState167)) (.node (.leaf docState103) (.leaf docState231)))) (.node (.node (.node (.leaf docState23) (.leaf docState151)) (.node (.leaf docState87) (.leaf docState215))) (.node (.node (.leaf docState55) (.leaf docState183)) (.node (.leaf docState119) (.leaf docState247))))) (.node (.node (.node (.node (.node (.leaf docState15) (.leaf docState271)) (.leaf docState143)) (.node (.leaf docState79) (.leaf docState207))) (.node (.node (.leaf docState47) (.leaf docState175)) (.node (.leaf docState111) (.leaf docState239)))) (.node (.node (.node (.leaf docState31) (.leaf docState159)) (.node (.leaf docState95) (.leaf docState223))) (.node (.node (.leaf docState63) (.leaf docState191)) (.node (.leaf docState127) (.leaf docState255)))))))))

/-- The number of its states. -/
def docCount : Nat := 274

/-- The tokens with which the symbols may begin. -/
def docFirst (n : Nat) : Nat := [216172782113783808, 216172782113783808, 216172782113783808, 5047660851512702, 544061224141950, 1024, 256, 544095583880574, 2795895397565822, 2251799813685292, 44, 544061224141950, 4096, 34359738368, 32, 4503599627370528, 32, 32, 17592186044416, 17592186044416, 32, 32, 0, 216172782113783808].getD n 0

/-- The symbols that may be empty. -/
def docNull (n : Nat) : Nat := [0, 0, 0, 1, 0, 0, 0, 0, 1, 1, 0, 0, 0, 0, 0, 1, 0, 0, 0, 0, 0, 0, 1, 0].getD n 0

end Verif.Pretty
