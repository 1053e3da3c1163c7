import Verif.Avro.JsonRound
/-!
# Decoder and encoder: results for all JSON values, and the inputs on which they go wrong
-/

namespace Verif.Avro

/-- Every part of the value satisfies `P`, and its dicts have distinct keys. -/
inductive Every (P : Val → Prop) : Val → Prop
  | atom {v : Val} : P v → (∀ xs, v ≠ .arr xs) → (∀ d, v ≠ .dict d) → Every P v
  | arr {xs : List Val} : P (.arr xs) → (∀ x ∈ xs, Every P x) → Every P (.arr xs)
  | dict {d : List (String × Val)} : P (.dict d) → PyDict.WF d → (∀ k x, (k, x) ∈ d → Every P x) → Every P (.dict d)

theorem Every.self {P : Val → Prop} {v : Val} (h : Every P v) : P v := by cases h <;> assumption

theorem Every.arr_inv {P : Val → Prop} {xs : List Val} (h : Every P (.arr xs)) : ∀ x ∈ xs, Every P x := by
  cases h with
  | atom _ h => exact absurd rfl (h xs)
  | arr _ h => exact h

theorem Every.dict_inv {P : Val → Prop} {d : List (String × Val)} (h : Every P (.dict d)) :
    PyDict.WF d ∧ ∀ k x, (k, x) ∈ d → Every P x := by
  cases h with
  | atom _ _ h => exact absurd rfl (h d)
  | dict _ h1 h2 => exact ⟨h1, h2⟩

/-- Conformance without integer ranges, with text of any characters for bytes and `{"null": null}`. -/
def loose : Lim where
  int _ := True
  long _ := True
  bytes v := ∃ s, v = .str s
  fixed k v := ∃ s, v = .str s ∧ s.length = k
  enum syms s := s ∈ syms
  nullTag := True
  boolInt := False

/-- Conformance with integer ranges. -/
def ranged : Lim where
  int := strict.int
  long := strict.long
  bytes v := ∃ s, v = .str s
  fixed k v := ∃ s, v = .str s ∧ s.length = k
  enum syms s := s ∈ syms
  nullTag := False
  boolInt := False

/-- C08, all JSON values: what the decoder returns conforms, apart from ranges and tagged nulls. -/
theorem dec_conforms {pf : List Char → Option Flt} {env : Env} {U : AType → Prop} (hU : Types env U)
    (hd : ∀ n fs f x, env.fields? n = some fs → f ∈ fs → f.default = some x → Every (fun _ => True) x)
    (n : Nat) (t : AType) (v u : Val) (ht : U t) (hv : Every (fun _ => True) v) (h : dec pf env n t v = .ok u) :
    Conf loose env t u :=
  dec_sound (L := loose) (S := Every (fun _ => True))
    { int := fun _ _ _ _ => ⟨trivial, trivial⟩
      bytes := fun s _ => ⟨s, rfl⟩
      fixed := fun s _ => ⟨s, rfl, rfl⟩
      enum := fun _ _ h => h
      arr := fun _ h => h.arr_inv
      dict := fun _ h => h.dict_inv
      nullTag := fun _ => trivial
      default := hd } hU n t v u ht hv h

/-- A JSON value that reads as an integer in range, if it reads as an integer at all. -/
def Fits (v : Val) : Prop := (∀ i, toInt v = .ok i → strict.int i) ∧ v ≠ .dict [("null", .null)]

/-- C08, full statement, on inputs whose numbers are in range and that do not tag null. -/
theorem dec_conforms_ranged_partial {pf : List Char → Option Flt} {env : Env} {U : AType → Prop} (hU : Types env U)
    (hd : ∀ n fs f x, env.fields? n = some fs → f ∈ fs → f.default = some x → Every Fits x)
    (n : Nat) (t : AType) (v u : Val) (ht : U t) (hv : Every Fits v) (h : dec pf env n t v = .ok u) :
    Conf ranged env t u :=
  dec_sound (L := ranged) (S := Every Fits)
    { int := fun v i h hi => by
        have := h.self.1 i hi
        exact ⟨this, by have h1 := this.1; have h2 := this.2; exact ⟨by omega, by omega⟩⟩
      bytes := fun s _ => ⟨s, rfl⟩
      fixed := fun s _ => ⟨s, rfl, rfl⟩
      enum := fun _ _ h => h
      arr := fun _ h => h.arr_inv
      dict := fun _ h => h.dict_inv
      nullTag := fun h => absurd rfl h.self.2
      default := hd } hU n t v u ht hv h

/-! ## C08 violations -/

theorem conf_int {L : Lim} {env : Env} {i : Int} (h : Conf L env .int (.int i)) : L.int i := by cases h; assumption

/-- Integers are not checked for range. -/
theorem dec_range_violation (pf : List Char → Option Flt) (env : Env) (n : Nat) :
    dec pf env (n + 1) .int (.int (2 ^ 31)) = .ok (.int (2 ^ 31)) ∧ ¬ Conf strict env .int (.int (2 ^ 31)) := by
  refine ⟨rfl, fun h => ?_⟩
  have := (conf_int h).2
  simp at this

/-- Floats are truncated, bools and text are read as integers, instead of raising AvroException. -/
theorem dec_lenient_violation (pf : List Char → Option Flt) (env : Env) (n : Nat) :
    dec pf env (n + 1) .int (.flt (.fin (5 / 2))) = .ok (.int 2) ∧
    dec pf env (n + 1) .int (.bool true) = .ok (.int 1) ∧
    dec pf env (n + 1) .int (.str " 1_0 ") = .ok (.int 10) := by
  refine ⟨?_, rfl, by rfl⟩
  have : Arith.trunc (5 / 2) = 2 := by
    unfold Arith.trunc
    rw [if_pos (by norm_num)]
    rw [Int.floor_eq_iff]; norm_num
  simp [dec, decStep, toInt, this, Res.app]

/-- A tagged null stays tagged: the value is not the null the rest of the engine expects. -/
theorem dec_nullTag_violation (pf : List Char → Option Flt) (env : Env) (n : Nat) :
    dec pf env (n + 2) (.union [.null, .int]) (.dict [("null", .null)]) = .ok (.dict [("null", .null)]) ∧
    ¬ Conf strict env (.union [.null, .int]) (.dict [("null", .null)]) := by
  refine ⟨by rfl, fun h => ?_⟩
  generalize hv : Val.dict [("null", .null)] = v at h
  generalize ht : AType.union [.null, .int] = t at h
  cases h with
  | unionNullTag h => exact h
  | @union ts t v hm hne hc =>
    cases ht
    have hn : "null" = t.name := by injection hv with h; injection h with h _; injection h
    simp only [List.mem_cons, List.not_mem_nil, or_false] at hm
    rcases hm with rfl | rfl
    · exact hne rfl
    · exact absurd hn (by decide)
  | _ => first | (cases hv; done) | (cases ht; done)

/-- Infinities read as integers raise OverflowError, not AvroException. -/
theorem dec_overflow_violation (pf : List Char → Option Flt) (env : Env) (n : Nat) :
    dec pf env (n + 1) .int (.flt .pinf) = .error (.py "OverflowError") := rfl

/-- A record whose field defaults to an empty record of the same type. -/
def loopEnv : Env := [(⟨"", "R"⟩, [⟨"f", .record ⟨"", "R"⟩, some (.dict []), .ascending⟩])]

/-- Decoding does not terminate when a default needs itself. -/
theorem dec_loops_violation (pf : List Char → Option Flt) (n : Nat) :
    dec pf loopEnv n (.record ⟨"", "R"⟩) (.dict []) = .error recErr := by
  induction n with
  | zero => rfl
  | succ n ih =>
    have hf : loopEnv.fields? ⟨"", "R"⟩ = some [⟨"f", .record ⟨"", "R"⟩, some (.dict []), .ascending⟩] := by
      simp [loopEnv, Env.fields?, PyDict.get?]
    simp only [dec, decStep, hf, decFields, PyDict.get?, ih, Res.app]

/-! ## C07 violations -/

theorem pyEq_dict1 {k l : String} {x y : Val} (h : PyEq (.dict [(k, x)]) (.dict [(l, y)])) : k = l := by
  cases h with
  | refl => rfl
  | dict h _ =>
    have := (h k).1 (by simp [PyDict.get?])
    simp only [PyDict.get?] at this
    split at this
    · next h => exact h.symm
    · cases this

/-- The datum tagged long comes back tagged int. -/
theorem roundtrip_tag_violation (pf : List Char → Option Flt) (env : Env) :
    Conf strict env (.union [.int, .long]) (.dict [("long", .int 5)]) ∧
    Ends (enc true env) (.union [.int, .long]) (.dict [("long", .int 5)]) (.dict [("int", .int 5)]) ∧
    Ends (dec pf env) (.union [.int, .long]) (.dict [("int", .int 5)]) (.dict [("int", .int 5)]) ∧
    ¬ PyEq (.dict [("int", .int 5)]) (.dict [("long", .int 5)]) := by
  refine ⟨.union (t := .long) (by simp) (by simp) (.long (by constructor <;> decide)), ⟨2, fun n hn => ?_⟩,
    ⟨2, fun n hn => ?_⟩, fun h => absurd (pyEq_dict1 h) (by decide)⟩ <;>
  · obtain ⟨m, rfl⟩ : ∃ m, n = m + 2 := ⟨n - 2, by omega⟩
    rfl

/-- Two records, the first with no required field. -/
def twoEnv : Env := [(⟨"", "A"⟩, []), (⟨"", "B"⟩, [⟨"x", .int, none, .ascending⟩])]

/-- The data of a record are lost: a B comes back as an empty A. -/
theorem roundtrip_loss_violation :
    Ends (enc true twoEnv) (.union [.record ⟨"", "A"⟩, .record ⟨"", "B"⟩]) (.dict [("B", .dict [("x", .int 1)])])
      (.dict [("A", .dict [])]) := by
  refine ⟨2, fun n hn => ?_⟩
  obtain ⟨m, rfl⟩ : ∃ m, n = m + 2 := ⟨n - 2, by omega⟩
  rfl

/-! ## A concrete case of the round trip: a recursive type -/

/-- The types reachable from `Tree`. -/
def treeTypes (t : AType) : Prop :=
  t = .record ⟨"", "Tree"⟩ ∨ t = .int ∨ t = .null ∨ t = .union [.null, .record ⟨"", "Tree"⟩]

theorem treeTypes_tags : Tags treeEnv treeTypes where
  array t h := by rcases h with h | h | h | h <;> cases h
  map t h := by rcases h with h | h | h | h <;> cases h
  union ts h t ht := by
    rcases h with h | h | h | h <;> cases h
    simp only [List.mem_cons, List.not_mem_nil, or_false] at ht
    rcases ht with rfl | rfl <;> simp [treeTypes]
  record n fs f h hf hm := by
    simp only [treeEnv, Env.fields?, PyDict.get?] at hf
    split at hf <;> cases hf
    simp only [List.mem_cons, List.not_mem_nil, or_false] at hm
    rcases hm with rfl | rfl | rfl <;> simp [treeTypes]
  names := treeEnv_ok.names
  null ts t h ht hn := by
    rcases h with h | h | h | h <;> cases h
    simp only [List.mem_cons, List.not_mem_nil, or_false] at ht
    rcases ht with rfl | rfl
    · rfl
    · exact absurd hn (by decide)
  tags ts t t' h ht ht' hn := by
    rcases h with h | h | h | h <;> cases h
    simp only [List.mem_cons, List.not_mem_nil, or_false] at ht ht'
    rcases ht with rfl | rfl <;> rcases ht' with rfl | rfl <;> first | rfl | exact absurd hn (by decide)

theorem treeTypes_apart (tagged : Bool) : Apart tagged strict treeEnv treeTypes := by
  refine apart_of_kinds tagged strict_plain ?_
  intro ts t t' h ht ht' hn
  rcases h with h | h | h | h <;> cases h
  simp only [List.mem_cons, List.not_mem_nil, or_false] at ht ht'
  rcases ht with rfl | rfl <;> rcases ht' with rfl | rfl <;> first | exact absurd rfl hn | decide

/-- A tree with one node. -/
theorem tree_conf : Conf strict treeEnv (.record ⟨"", "Tree"⟩)
    (.dict [("right", .null), ("value", .int 7), ("left", .null)]) := by
  refine .record (fun k => if k = "value" then .int 7 else .null)
    (fs := [⟨"value", .int, none, .ascending⟩, ⟨"left", .union [.null, .record ⟨"", "Tree"⟩], none, .ascending⟩,
      ⟨"right", .union [.null, .record ⟨"", "Tree"⟩], none, .ascending⟩])
    (by simp [treeEnv, Env.fields?, PyDict.get?]) (by decide) ?_ ?_ ?_
  · intro k hk
    simp only [PyDict.keys, List.map_cons, List.map_nil, List.mem_cons, List.not_mem_nil, or_false] at hk
    rcases hk with rfl | rfl | rfl <;> simp
  · intro f hf
    simp only [List.mem_cons, List.not_mem_nil, or_false] at hf
    rcases hf with rfl | rfl | rfl <;> rfl
  · intro f hf
    simp only [List.mem_cons, List.not_mem_nil, or_false] at hf
    rcases hf with rfl | rfl | rfl
    · exact .int (by constructor <;> decide)
    · exact .unionNull (by simp)
    · exact .unionNull (by simp)

/-- The hypotheses of the round trip hold for a recursive record type with a union. -/
example (pf : List Char → Option Flt) : ∃ j u,
    Ends (enc true treeEnv) (.record ⟨"", "Tree"⟩) (.dict [("right", .null), ("value", .int 7), ("left", .null)]) j ∧
    Ends (dec pf treeEnv) (.record ⟨"", "Tree"⟩) j u ∧
    PyEq u (.dict [("right", .null), ("value", .int 7), ("left", .null)]) :=
  roundtrip_partial strict_plain treeTypes_tags (treeTypes_apart true) (.inl rfl) tree_conf

example (pf : List Char → Option Flt) :
    dec pf treeEnv 3 (.record ⟨"", "Tree"⟩) (.dict [("right", .null), ("value", .int 7), ("left", .null), ("more", .int 1)]) =
    .ok (.dict [("value", .int 7), ("left", .null), ("right", .null)]) := by rfl

end Verif.Avro
