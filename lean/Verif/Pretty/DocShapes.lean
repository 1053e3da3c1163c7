import Verif.Pretty.DocTables
import Verif.Pretty.Shapes

/-!
# How PrettyPFA documents are read

The shapes of documents, like those of expressions in `Shapes.lean`: the expressions inside are the same.  Left out: the first section begins at the first character of
the text and the others on lines of their own; the list of expressions of a section, if it is a list, ends with `;`; the body of a function is a block.
-/

set_option Elab.async false -- one check at a time, for the sake of memory

namespace Verif.Pretty
open Lr

/-- The kinds of trees. -/
inductive DSh where
  /-- those of expressions -/
  | e (i : Sh)
  | doc | secs
  /-- the first section, and the others -/
  | sec0 | sec
  /-- what may be in a section -/
  | any
  /-- a list of expressions with `;` at the end -/
  | body
  /-- functions: any number, or one or more -/
  | fdefs | fdefs1
  | fdef | cells | cell
deriving DecidableEq

/-- All of them. -/
def docShs : List DSh := shs.map .e ++ [.doc, .secs, .sec0, .sec, .any, .body, .fdefs, .fdefs1, .fdef, .cells, .cell]

theorem docShs_all (i : DSh) : i ∈ docShs := by
  cases i with
  | e i => exact List.mem_append_left _ (List.mem_map.2 ⟨i, shs_all i, rfl⟩)
  | _ => exact List.mem_append_right _ (by decide)

/-- The symbol of the grammar. -/
def docSym : DSh → Nt
  | .e i => shSym i
  | .doc => .document
  | .secs => .sections
  | .sec0 | .sec => .section
  | .any => .anything
  | .body => .expressions
  | .fdefs | .fdefs1 => .namedfcndefs
  | .fdef => .namedfcndef
  | .cells => .cellpools
  | .cell => .cellpool

/-- A child of an expression as a child in a document. -/
def Kid.doc : Kid Tm Sh → Kid Tm DSh
  | .tok a => .tok a
  | .sh i => .sh (.e i)

/-- A cell or pool with its kind of initial value. -/
def cellAlt (p : Pr) (k : Kid Tm DSh) : Pr × List (Kid Tm DSh) := (p, [.tok .dotname, .tok .lparen, .sh (.e .args), .tok .rparen, .tok .equal, k])

/-- The alternatives. -/
def docAlts : DSh → List (Pr × List (Kid Tm DSh))
  | .e i => (alts i).map fun a => (a.1, a.2.map Kid.doc)
  | .doc => [(.document, [.sh .secs])]
  | .secs => [(.sections1, [.sh .sec0]), (.sectionsMore, [.sh .secs, .sh .sec])]
  | .sec0 => [(.sectionStart, [.tok .headerStart, .sh .any])]
  | .sec => [(.section, [.tok .header, .sh .any])]
  | .any => [(.anyExpr, [.sh (.e .stmt)]), (.anyExprs, [.sh .body]), (.anyBracketed, [.sh (.e .bargs)]), (.anyFcns, [.sh .fdefs]), (.anyCells, [.sh .cells])]
  | .body => [(.exprsSemi, [.sh (.e .exprs), .tok .semi])]
  | .fdefs => [(.named0, [.sh (.e .empty)]), (.named1, [.sh .fdef]), (.namedMore, [.sh .fdefs1, .tok .semi, .sh .fdef])]
  | .fdefs1 => [(.named1, [.sh .fdef]), (.namedMore, [.sh .fdefs1, .tok .semi, .sh .fdef])]
  | .fdef => [(.namedB, [.tok .dotname, .tok .equal, .tok .fcn, .tok .lparen, .sh (.e .params), .sh (.e .rettype), .tok .rparen, .sh (.e .block)])]
  | .cells => [(.cells1, [.sh .cell]), (.cellsMore, [.sh .cells, .tok .semi, .sh .cell])]
  | .cell => [cellAlt .cellBlock (.sh (.e .block)), cellAlt .cellBracketed (.sh (.e .bargs)), cellAlt .cellNumber (.tok .number), cellAlt .cellStr (.tok .string),
      cellAlt .cellRaw (.tok .rawstring), cellAlt .cellName (.tok .dotname), cellAlt .cellRepl (.tok .replacement)]

/-- The states in which trees of a shape of expressions begin, with the tokens that may follow. -/
def docCtxE : Sh → List (Nat × Nat)
  | .x l => ([[], [(3, 134217728), (4, 134217728), (13, 134217728), (14, 2251799947903488), (20, 134217728), (61, 2251799947903488), (62, 134217728), (81, 2251799947903104), (82, 150870587651129345), (83, 2251799947903488), (84, 149744687744288897), (91, 134217728), (92, 134217728), (96, 2251799947903104), (98, 2251799947902976), (100, 2251799947903104), (133, 151996487557978753), (134, 2251799947903104), (135, 150870587651131521), (136, 151996487557978753), (137, 151996487557978753), (139, 2251799947903616), (167, 2251799947903104), (178, 148618787837446273), (181, 134217728), (182, 4503599761588224), (194, 148618787837446273), (197, 134217856), (201, 148618787837446273), (202, 149744687744288897), (233, 134217728), (249, 148618787837446273)], [(3, 268435456), (4, 268435456), (13, 268435456), (14, 268435456), (20, 268435456), (41, 151996487826414209), (61, 268435456), (62, 268435456), (81, 268435456), (82, 268435456), (83, 268435456), (84, 268435456), (91, 268435456), (92, 268435456), (96, 268435456), (98, 268435456), (100, 268435456), (133, 268435456), (134, 268435456), (135, 268435456), (136, 268435456), (137, 268435456), (139, 268435456), (167, 268435456), (178, 268435456), (181, 268435456), (182, 268435456), (194, 268435456), (197, 268435456), (201, 268435456), (202, 268435456), (233, 268435456), (249, 268435456)], [(3, 67108864), (4, 67108864), (13, 67108864), (14, 67108864), (20, 67108864), (41, 67108864), (42, 151996487893523073), (61, 67108864), (62, 67108864), (81, 67108864), (82, 67108864), (83, 67108864), (84, 67108864), (91, 67108864), (92, 67108864), (96, 67108864), (98, 67108864), (100, 67108864), (133, 67108864), (134, 67108864), (135, 67108864), (136, 67108864), (137, 67108864), (139, 67108864), (167, 67108864), (178, 67108864), (181, 67108864), (182, 67108864), (194, 67108864), (197, 67108864), (201, 67108864), (202, 67108864), (233, 67108864), (249, 67108864)], [(19, 151996487893523073), (43, 151996487893523073)], [], [(3, 2213543936), (4, 2213543936), (13, 2213543936), (14, 2213543936), (19, 2213543936), (20, 2213543936), (41, 2213543936), (42, 2213543936), (43, 2213543936), (44, 151996490041006721), (45, 151996490041006721), (46, 151996490041006721), (47, 151996490041006721), (48, 151996490041006721), (49, 151996490041006721), (61, 2213543936), (62, 2213543936), (81, 2213543936), (82, 2213543936), (83, 2213543936), (84, 2213543936), (91, 2213543936), (92, 2213543936), (96, 2213543936), (98, 2213543936), (100, 2213543936), (133, 2213543936), (134, 2213543936), (135, 2213543936), (136, 2213543936), (137, 2213543936), (139, 2213543936), (167, 2213543936), (178, 2213543936), (181, 2213543936), (182, 2213543936), (194, 2213543936), (197, 2213543936), (201, 2213543936), (202, 2213543936), (233, 2213543936), (249, 2213543936)], [(3, 4294967296), (4, 4294967296), (13, 4294967296), (14, 4294967296), (19, 4294967296), (20, 4294967296), (41, 4294967296), (42, 4294967296), (43, 4294967296), (44, 4294967296), (45, 4294967296), (46, 4294967296), (47, 4294967296), (48, 4294967296), (49, 4294967296), (50, 151996494402034305), (61, 4294967296), (62, 4294967296), (81, 4294967296), (82, 4294967296), (83, 4294967296), (84, 4294967296), (91, 4294967296), (92, 4294967296), (96, 4294967296), (98, 4294967296), (100, 4294967296), (133, 4294967296), (134, 4294967296), (135, 4294967296), (136, 4294967296), (137, 4294967296), (139, 4294967296), (167, 4294967296), (178, 4294967296), (181, 4294967296), (182, 4294967296), (194, 4294967296), (197, 4294967296), (201, 4294967296), (202, 4294967296), (233, 4294967296), (249, 4294967296)], [(3, 1073741824), (4, 1073741824), (13, 1073741824), (14, 1073741824), (19, 1073741824), (20, 1073741824), (41, 1073741824), (42, 1073741824), (43, 1073741824), (44, 1073741824), (45, 1073741824), (46, 1073741824), (47, 1073741824), (48, 1073741824), (49, 1073741824), (50, 1073741824), (51, 151996495475776129), (61, 1073741824), (62, 1073741824), (81, 1073741824), (82, 1073741824), (83, 1073741824), (84, 1073741824), (91, 1073741824), (92, 1073741824), (96, 1073741824), (98, 1073741824), (100, 1073741824), (133, 1073741824), (134, 1073741824), (135, 1073741824), (136, 1073741824), (137, 1073741824), (139, 1073741824), (167, 1073741824), (178, 1073741824), (181, 1073741824), (182, 1073741824), (194, 1073741824), (197, 1073741824), (201, 1073741824), (202, 1073741824), (233, 1073741824), (249, 1073741824)], [(3, 24576), (4, 24576), (13, 24576), (14, 24576), (19, 24576), (20, 24576), (41, 24576), (42, 24576), (43, 24576), (44, 24576), (45, 24576), (46, 24576), (47, 24576), (48, 24576), (49, 24576), (50, 24576), (51, 24576), (52, 151996495475800705), (61, 24576), (62, 24576), (81, 24576), (82, 24576), (83, 24576), (84, 24576), (91, 24576), (92, 24576), (96, 24576), (98, 24576), (100, 24576), (133, 24576), (134, 24576), (135, 24576), (136, 24576), (137, 24576), (139, 24576), (167, 24576), (178, 24576), (181, 24576), (182, 24576), (194, 24576), (197, 24576), (201, 24576), (202, 24576), (233, 24576), (249, 24576)], [(3, 17180360704), (4, 17180360704), (13, 17180360704), (14, 17180360704), (19, 17180360704), (20, 17180360704), (41, 17180360704), (42, 17180360704), (43, 17180360704), (44, 17180360704), (45, 17180360704), (46, 17180360704), (47, 17180360704), (48, 17180360704), (49, 17180360704), (50, 17180360704), (51, 17180360704), (52, 17180360704), (53, 151996512656161409), (54, 151996512656161409), (61, 17180360704), (62, 17180360704), (81, 17180360704), (82, 17180360704), (83, 17180360704), (84, 17180360704), (91, 17180360704), (92, 17180360704), (96, 17180360704), (98, 17180360704), (100, 17180360704), (133, 17180360704), (134, 17180360704), (135, 17180360704), (136, 17180360704), (137, 17180360704), (139, 17180360704), (167, 17180360704), (178, 17180360704), (181, 17180360704), (182, 17180360704), (194, 17180360704), (197, 17180360704), (201, 17180360704), (202, 17180360704), (233, 17180360704), (249, 17180360704)], [(17, 151996512656161409), (18, 151996512656161409), (55, 151996512656161409), (56, 151996512656161409), (57, 151996512656161409), (58, 151996512656161409), (59, 151996512656161409)], [(3, 524288), (4, 524288), (13, 524288), (14, 524288), (17, 524288), (18, 524288), (19, 524288), (20, 524288), (41, 524288), (42, 524288), (43, 524288), (44, 524288), (45, 524288), (46, 524288), (47, 524288), (48, 524288), (49, 524288), (50, 524288), (51, 524288), (52, 524288), (53, 524288), (54, 524288), (55, 524288), (56, 524288), (57, 524288), (58, 524288), (59, 524288), (61, 524288), (62, 524288), (81, 524288), (82, 524288), (83, 524288), (84, 524288), (91, 524288), (92, 524288), (96, 524288), (98, 524288), (100, 524288), (133, 524288), (134, 524288), (135, 524288), (136, 524288), (137, 524288), (139, 524288), (167, 524288), (178, 524288), (181, 524288), (182, 524288), (194, 524288), (197, 524288), (201, 524288), (202, 524288), (233, 524288), (249, 524288)], [(26, 1099511627776), (60, 151996512656685697), (179, 148618925142182017), (180, 148618787703228545), (186, 148618787703228545), (190, 148618925142182017), (192, 148618787703228545), (193, 148618787703228545), (236, 148618787703228545), (237, 148618787703228545), (239, 148618787703228545), (244, 148618787703228545), (245, 148618925142182017), (265, 148618787703228545), (268, 148618787703228545), (270, 17592186046464)]] : List (List (Nat × Nat))).getD l []
  | .base => [(3, 256), (4, 256), (13, 256), (20, 256), (62, 256), (91, 256), (92, 256), (181, 256), (233, 256)]
  | .stmt => [(3, 148618787703226369), (4, 148618787703226369), (13, 4503599627372544), (20, 128), (62, 4503599627372544), (91, 128), (92, 128), (181, 128), (233, 148618787703228545)]
  | .bexpr => [(32, 148618787703228545)]
  | .block => [(3, 148618812936151041), (4, 148618812936151041), (13, 4503624860297216), (14, 2251825046610432), (17, 151996512656685697), (18, 151996512656685697), (19, 151996512656685697), (20, 25232924800), (26, 1099511627776), (32, 148618787703228545), (41, 151996512656685697), (42, 151996512656685697), (43, 151996512656685697), (44, 151996512590625409), (45, 151996512590625409), (46, 151996512590625409), (47, 151996512590625409), (48, 151996512590625409), (49, 151996512590625409), (50, 151996512656685697), (51, 151996512656685697), (52, 151996512656685697), (53, 151996512656685697), (54, 151996512656685697), (55, 151996512656685697), (56, 151996512656685697), (57, 151996512656685697), (58, 151996512656685697), (59, 151996512656685697), (60, 151996512656685697), (61, 2251825046610432), (62, 4503624860297216), (81, 2251825046610048), (82, 150870612749836289), (83, 2251825046610432), (84, 149744712842995841), (91, 25232924800), (92, 25232924800), (96, 2251825046610048), (98, 2251825046609920), (100, 2251825046610048), (133, 151996512656685697), (134, 2251825046610048), (135, 150870612749838465), (136, 151996512656685697), (137, 151996512656685697), (139, 2251825046610560), (167, 2251825046610048), (178, 148618812936153217), (179, 148618925142182017), (180, 148618787703228545), (181, 25232924800), (182, 4503624860295168), (186, 148618787703228545), (190, 148618925142182017), (192, 148618787703228545), (193, 148618787703228545), (194, 148618812936153217), (197, 25232924800), (199, 148618787703226369), (201, 148618812936153217), (202, 149744712842995841), (222, 151996487423761025), (233, 148618812936153217), (236, 148618787703228545), (237, 148618787703228545), (239, 148618787703228545), (244, 148618787703228545), (245, 148618925142182017), (248, 148618787703226369), (249, 148618812936153217), (265, 148618787703228545), (268, 148618787703228545), (270, 17592186046464)]
  | .exprs => [(3, 4503599627370496), (4, 4503599627370496), (13, 4503599627372544)]
  | .args => [(14, 512), (61, 512), (81, 128), (83, 512), (134, 128), (167, 128)]
  | .args1 => [(14, 2251799813685248), (61, 2251799813685248), (81, 2251799813685248), (83, 2251799813685248), (100, 2251799813685248), (134, 2251799813685248), (167, 2251799813685248)]
  | .args2 => [(100, 128)]
  | .params => [(13, 2048), (97, 128), (140, 4096), (176, 4096), (191, 128)]
  | .params1 => [(13, 2251799813685248), (97, 2251799813685248), (140, 2251799813685248), (176, 2251799813685248), (191, 2251799813685248)]
  | .empty => [(3, 144115188075855873), (4, 144115188075855873), (13, 2048), (14, 512), (61, 512), (81, 128), (83, 512), (97, 128), (100, 128), (134, 128), (140, 4096), (167, 128), (176, 4096), (191, 128)]
  | .arg => [(14, 2251799813685760), (61, 2251799813685760), (81, 2251799813685376), (83, 2251799813685760), (84, 149744687610071169), (100, 2251799813685248), (133, 151996487423761025), (134, 2251799813685376), (136, 151996487423761025), (137, 151996487423761025), (139, 2251799813685888), (167, 2251799813685376), (202, 149744687610071169)]
  | .bargs => [(3, 144115188075855873), (4, 144115188075855873), (14, 2251799813685760), (61, 2251799813685760), (81, 2251799813685376), (83, 2251799813685760), (84, 149744687610071169), (100, 2251799813685248), (133, 151996487423761025), (134, 2251799813685376), (136, 151996487423761025), (137, 151996487423761025), (139, 2251799813685888), (167, 2251799813685376), (199, 148618787703226369), (202, 149744687610071169)]
  | .param => [(13, 2251799813687296), (14, 2251799813685760), (61, 2251799813685760), (81, 2251799813685376), (83, 2251799813685760), (84, 149744687610071169), (95, 2251799813685376), (97, 2251799813685376), (100, 2251799813685248), (132, 2251799813691520), (133, 151996487423761025), (134, 2251799813685376), (136, 151996487423761025), (137, 151996487423761025), (139, 2251799813685888), (140, 2251799813689344), (167, 2251799813685376), (176, 2251799813689344), (183, 128), (184, 128), (187, 128), (189, 128), (191, 2251799813685376), (202, 149744687610071169), (256, 128)]
  | .fcndef => [(14, 2251799813685760), (61, 2251799813685760), (81, 2251799813685376), (83, 2251799813685760), (84, 149744687610071169), (100, 2251799813685248), (133, 151996487423761025), (134, 2251799813685376), (136, 151996487423761025), (137, 151996487423761025), (139, 2251799813685888), (167, 2251799813685376), (202, 149744687610071169)]
  | .rettype => [(174, 128), (200, 128)]
  | .asblock => [(213, 17592186046464), (242, 17592186046464), (259, 17592186046464), (267, 17592186046464)]
  | .asblocks => [(213, 17592186046464), (259, 17592186046464)]
  | .assign => [(3, 150870587516911617), (4, 150870587516911617), (13, 6755399441057792), (20, 2251799813685376), (35, 150870587516913793), (62, 6755399441057792), (91, 2251799813685376), (92, 2251799813685376), (94, 6755399441055744), (101, 150870587516913793), (181, 2251799813685376), (233, 150870587516913793), (235, 2251799813685376)]
  | .assigns => [(3, 150870587516911617), (4, 150870587516911617), (13, 6755399441057792), (20, 2251799813685376), (35, 150870587516913793), (62, 6755399441057792), (91, 2251799813685376), (92, 2251799813685376), (94, 6755399441055744), (181, 2251799813685376), (233, 150870587516913793), (235, 2251799813685376)]

/-- The same of all shapes. -/
def docCtx : DSh → List (Nat × Nat)
  | .e i => docCtxE i
  | .doc => [(0, 1)]
  | .secs => [(0, 144115188075855873)]
  | .sec0 => [(0, 144115188075855873)]
  | .sec => [(2, 144115188075855873)]
  | .any => [(3, 144115188075855873), (4, 144115188075855873)]
  | .body => [(3, 144115188075855873), (4, 144115188075855873)]
  | .fdefs => [(3, 144115188075855873), (4, 144115188075855873)]
  | .fdefs1 => [(3, 4503599627370496), (4, 4503599627370496)]
  | .fdef => [(3, 148618787703226369), (4, 148618787703226369), (63, 148618787703226369)]
  | .cells => [(3, 148618787703226369), (4, 148618787703226369)]
  | .cell => [(3, 148618787703226369), (4, 148618787703226369), (64, 148618787703226369)]

/-- The tokens with which trees of a shape begin. -/
def docFirstOf : DSh → Nat
  | .e i => firstOf i
  | .doc => 72057594037927936
  | .secs => 72057594037927936
  | .sec0 => 72057594037927936
  | .sec => 144115188075855872
  | .any => 544061224142206
  | .body => 544061224141950
  | .fdefs => 32
  | .fdefs1 => 32
  | .fdef => 32
  | .cells => 32
  | .cell => 32

/-- The shapes that may be empty. -/
def docNullOf : DSh → Bool
  | .e i => nullOf i
  | .any | .fdefs => true
  | _ => false

/-- The shapes with what the automaton knows of them. -/
def docShapes : Shapes Tm Nt Pr DSh := ⟨Tm.bit, docSym, docAlts, docCtx, docFirstOf, docNullOf⟩

/-- The parser of documents: ply with the tables of the grammar, start symbol `document`. -/
def docParser : Machine Tm Nt Pr Tok := machine true docAutomaton

set_option maxRecDepth 100000 in
theorem docOk1 : (docAutomaton.states.take 70).all (stateOk true docFirst docNull docAutomaton) = true := by decide +kernel

set_option maxRecDepth 100000 in
theorem docOk2 : ((docAutomaton.states.drop 70).take 70).all (stateOk true docFirst docNull docAutomaton) = true := by decide +kernel

set_option maxRecDepth 100000 in
theorem docOk3 : ((docAutomaton.states.drop 140).take 70).all (stateOk true docFirst docNull docAutomaton) = true := by decide +kernel

set_option maxRecDepth 100000 in
theorem docOk4 : (docAutomaton.states.drop 210).all (stateOk true docFirst docNull docAutomaton) = true := by decide +kernel

set_option maxRecDepth 100000 in
/-- The automaton is that of the grammar. -/
theorem docOk : automatonOk true docFirst docNull docAutomaton = true := by
  refine automatonOk_parts (by decide +kernel) (by decide +kernel) ?_
  refine all_parts 70 docOk1 ?_
  refine all_parts 70 docOk2 ?_
  rw [List.drop_drop]
  refine all_parts 70 docOk3 ?_
  rw [List.drop_drop]
  exact docOk4

set_option maxRecDepth 100000 in
theorem docShapesOk1 : check docShapes docParser tms (docShs.take 2) = true := by decide +kernel

set_option maxRecDepth 100000 in
theorem docShapesOk2 : check docShapes docParser tms ((docShs.drop 2).take 2) = true := by decide +kernel

set_option maxRecDepth 100000 in
theorem docShapesOk3 : check docShapes docParser tms ((docShs.drop 4).take 3) = true := by decide +kernel

set_option maxRecDepth 100000 in
theorem docShapesOk4 : check docShapes docParser tms ((docShs.drop 7).take 2) = true := by decide +kernel

set_option maxRecDepth 100000 in
theorem docShapesOk5 : check docShapes docParser tms ((docShs.drop 9).take 2) = true := by decide +kernel

set_option maxRecDepth 100000 in
theorem docShapesOk6 : check docShapes docParser tms (docShs.drop 11) = true := by decide +kernel

/-- The automaton reads the shapes. -/
theorem docShapesOk : check docShapes docParser tms docShs = true := by
  refine all_parts 2 docShapesOk1 ?_
  refine all_parts 2 docShapesOk2 ?_
  rw [List.drop_drop]
  refine all_parts 3 docShapesOk3 ?_
  rw [List.drop_drop]
  refine all_parts 2 docShapesOk4 ?_
  rw [List.drop_drop]
  refine all_parts 2 docShapesOk5 ?_
  rw [List.drop_drop]
  exact docShapesOk6

/-- Whatever the parser returns is a derivation in the grammar of prettypfa.py, of all tokens and from `document`. -/
theorem document_sound {inp : List Tok} {t : T} (h : Parses docParser inp t) : WF docParser t ∧ root docParser t = .n .document ∧ t.yield = inp :=
  parser_sound docOk h

set_option maxRecDepth 100000 in
/-- Every reduction of the automaton has a state to go to. -/
theorem docLive : liveOk true docAutomaton = true := by decide +kernel

/-- Every list of tokens is read or refused, and it is refused only at a token for which the tables have no action. -/
theorem document_end (inp : List Tok) : (∃ t, Parses docParser inp t) ∨ ∃ left st, Fails docParser inp left ∧ Steps docParser ([], inp) (st, left) ∧
    docParser.act (top st) (look docParser left .eof) = none := by
  rcases parser_ends (past docOk) (ends docOk docLive) inp with h | ⟨left, h⟩
  · exact .inl h
  · obtain ⟨st, h1, h2⟩ := h.table (past docOk) (live docOk docLive)
    exact .inr ⟨left, st, h, h1, h2⟩

/-- Every document of the right shape is read as it is. -/
theorem document_read {t : T} (h : Has docParser docShapes .doc t) : Parses docParser t.yield t := by
  refine parses_complete docShapesOk docShs_all tms_all (la := 1) ?_ ?_ ?_ h
  · decide +kernel
  · decide +kernel
  · intro q hq
    have : docParser.go 0 (docShapes.sym .doc) = some q := hq
    have h2 : (docParser.go 0 (docShapes.sym .doc)).bind (fun q => docParser.act q .eof) = some .accept := by decide +kernel
    rw [this] at h2
    exact h2

mutual
/-- Expressions are the same inside documents. -/
theorem has_doc : ∀ {i : Sh} {t : T}, Has exprParser shapes i t → Has docParser docShapes (.e i) t
  | _, _, .mk hp hk => .mk (List.mem_map.2 ⟨_, hp, rfl⟩) (hasL_doc hk)
theorem hasL_doc : ∀ {ks : List (Kid Tm Sh)} {ts : List T}, HasL exprParser shapes ks ts → HasL docParser docShapes (ks.map Kid.doc) ts
  | _, _, .nil => .nil
  | _, _, .tok ht h => .tok ht (hasL_doc h)
  | _, _, .sh ht h => .sh (has_doc ht) (hasL_doc h)
end

end Verif.Pretty
