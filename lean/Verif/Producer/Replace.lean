import Verif.Producer.Search
/-! # Replacing what matches: model and laws (C82)

Models `titus/producer/tools.py` 62-72: `assignAt`, `assignedAt`.  The generator `search` is at work while the document is changed: after each yield the
place is assigned to, and the generator goes on in the changed document.

Simplifications.  The generator holds references to the lists and objects that it is in; the model finds them again from the root.  The changes that were
made before an exception are not given back. -/

namespace Verif.Producer
open Avro

/-- Lines 393-395 and the body of the loop, line 65 or 71. -/
def hit (p : Pat) (t : Val) (path : List Ix) (root : Val) : Res Val := match get root path with
  | .error e => .error e
  | .ok v => match getmatch p v with
    | .error e => .error e
    | .ok none => .ok root
    | .ok (some _) => assign root path t

/-- The steps of a loop, one after another. -/
def runAll : List (String × (Val → Res Val)) → Val → Res Val
  | [], root => .ok root
  | f :: fs, root => match f.2 root with
    | .error e => .error e
    | .ok root => runAll fs root

mutual
/-- `for i in indexes(pattern, expr): assign(expr, i, to)` (lines 64-65 and 70-71) with `search` (lines 379-395): what happens while the generator is in
the part at `path`, which was the first argument when the loop began. -/
def go (p : Pat) (t : Val) : Val → List Ix → Val → Res Val
  | .dict d, path, root => match runAll (byKey (goD p t d path)) root with
    | .error e => .error e
    | .ok root => hit p t path root
  | .arr xs, path, root => match goL p t xs 0 path root with
    | .error e => .error e
    | .ok root => hit p t path root
  | _, path, root => hit p t path root
@[inherit_doc go] def goD (p : Pat) (t : Val) : List (String × Val) → List Ix → List (String × (Val → Res Val))
  | [], _ => []
  | (k, v) :: d, path => (k, go p t v (path ++ [.key k])) :: goD p t d path
@[inherit_doc go] def goL (p : Pat) (t : Val) : List Val → Nat → List Ix → Val → Res Val
  | [], _, _, root => .ok root
  | x :: xs, i, path, root => match go p t x (path ++ [.pos i]) root with
    | .error e => .error e
    | .ok root => goL p t xs (i + 1) path root
end

/-- `assignAt` and `assignedAt`, lines 62-72. -/
def assignAt (p : Pat) (v t : Val) : Res Val := go p t v [] v

/-! ## Specification: rewriting from the inside out -/

/-- Does it match? -/
def hits (p : Pat) (v : Val) : Bool := match getmatch p v with
  | .ok (some _) => true
  | _ => false

mutual
/-- Rewrite everything inside. -/
def inside (p : Pat) (t : Val) : Val → Val
  | .dict d => .dict (insideD p t d)
  | .arr xs => .arr (insideL p t xs)
  | v => v
@[inherit_doc inside] def insideD (p : Pat) (t : Val) : List (String × Val) → List (String × Val)
  | [] => []
  | (k, v) :: d => (k, if hits p (inside p t v) then t else inside p t v) :: insideD p t d
@[inherit_doc inside] def insideL (p : Pat) (t : Val) : List Val → List Val
  | [] => []
  | x :: xs => (if hits p (inside p t x) then t else inside p t x) :: insideL p t xs
end

/-- Rewrite everything inside, then the whole. -/
def rewrite (p : Pat) (t v : Val) : Val := if hits p (inside p t v) then t else inside p t v

/-! ## Lemmas: a document and a place in it -/

/-- What is at a place. -/
inductive At : Val → List Ix → Val → Prop where
  | here (v : Val) : At v [] v
  | key {d : List (String × Val)} {k : String} {c w : Val} {js : List Ix} (hm : PyDict.get? d k = some c) (h : At c js w) : At (.dict d) (.key k :: js) w
  | pos {xs : List Val} {i : Nat} {c w : Val} {js : List Ix} (hm : xs[i]? = some c) (h : At c js w) : At (.arr xs) (.pos i :: js) w

/-- The document with something else at the place. -/
def plug : Val → List Ix → Val → Val
  | _, [], x => x
  | .dict d, .key k :: js, x => match PyDict.get? d k with
    | some c => .dict (PyDict.set d k (plug c js x))
    | none => .dict d
  | .arr xs, .pos i :: js, x => match xs[i.toNat]? with
    | some c => .arr (xs.set i.toNat (plug c js x))
    | none => .arr xs
  | v, _, _ => v

theorem At.get {v w : Val} {js : List Ix} (h : At v js w) : Producer.get v js = .ok w := by
  induction h with
  | here => rfl
  | key hm _ ih => rw [Producer.get, step, hm]; exact ih
  | pos hm _ ih => rw [Producer.get, step_pos hm]; exact ih

theorem set_set {α : Type} {d : PyDict String α} {k : String} {a b : α} : PyDict.set (PyDict.set d k a) k b = PyDict.set d k b := by
  induction d with
  | nil => simp [PyDict.set]
  | cons kv d ih =>
    obtain ⟨k', v⟩ := kv
    by_cases h : k' = k
    · simp [PyDict.set, h]
    · simp [PyDict.set, h, ih]

theorem set_same {α : Type} {d : PyDict String α} {k : String} {a : α} (h : PyDict.get? d k = some a) : PyDict.set d k a = d := by
  induction d with
  | nil => cases h
  | cons kv d ih =>
    obtain ⟨k', v⟩ := kv
    by_cases hk : k' = k
    · rw [PyDict.get?, if_pos hk] at h; injection h with h; simp [PyDict.set, hk, h]
    · rw [PyDict.get?, if_neg hk] at h; simp [PyDict.set, hk, ih h]

theorem At.plug {v w : Val} {js : List Ix} (h : At v js w) (x : Val) : At (plug v js x) js x := by
  induction h with
  | here => exact .here _
  | @key d k c w js hm _ ih => rw [Producer.plug, hm]; exact .key (PyDict.get?_set_self _ _ _) ih
  | @pos xs i c w js hm _ ih =>
    have hl : i < xs.length := (List.getElem?_eq_some_iff.1 hm).1
    have : xs[(i : Int).toNat]? = some c := by simpa using hm
    rw [Producer.plug, this]
    exact .pos (c := Producer.plug c js x) (by simp [hl]) ih

theorem At.plug_plug {v w : Val} {js : List Ix} (h : At v js w) (x y : Val) : Producer.plug (Producer.plug v js x) js y = Producer.plug v js y := by
  induction h with
  | here => rfl
  | @key d k c w js hm _ ih => simp only [Producer.plug, hm, PyDict.get?_set_self, set_set, ih]
  | @pos xs i c w js hm _ ih =>
    have hl : i < xs.length := (List.getElem?_eq_some_iff.1 hm).1
    simp only [Producer.plug, Int.toNat_natCast, hm, List.getElem?_set_self hl, List.set_set, ih]

theorem At.plug_same {v w : Val} {js : List Ix} (h : At v js w) : Producer.plug v js w = v := by
  induction h with
  | here => rfl
  | @key d k c w js hm _ ih => simp only [Producer.plug, hm, ih, set_same hm]
  | @pos xs i c w js hm _ ih =>
    have hl : i < xs.length := (List.getElem?_eq_some_iff.1 hm).1
    have : xs[i] = c := by rw [List.getElem?_eq_getElem hl] at hm; injection hm
    simp only [Producer.plug, Int.toNat_natCast, hm, ih]
    rw [← this, List.set_getElem_self]

theorem At.trans {u v w : Val} {is js : List Ix} (h : At u is v) (h' : At v js w) : At u (is ++ js) w := by
  induction h with
  | here => exact h'
  | key hm _ ih => exact .key hm (ih h')
  | pos hm _ ih => exact .pos hm (ih h')

theorem At.plug_append {u v : Val} {is js : List Ix} (h : At u is v) (x : Val) : Producer.plug u (is ++ js) x = Producer.plug u is (Producer.plug v js x) := by
  induction h with
  | here => rfl
  | key hm _ ih => simp only [List.cons_append, Producer.plug, hm, ih]
  | pos hm _ ih => simp only [List.cons_append, Producer.plug, Int.toNat_natCast, hm, ih]

theorem At.assign {v w : Val} {js : List Ix} (h : At v js w) (hj : js ≠ []) (x : Val) : Producer.assign v js x = .ok (Producer.plug v js x) := by
  induction h with
  | here => exact absurd rfl hj
  | @key d k c w js hm _ ih =>
    cases js with
    | nil => simp only [Producer.assign, put, Producer.plug, hm]
    | cons j js => simp only [Producer.assign, step, hm, ih (by simp), put, Producer.plug]
  | @pos xs i c w js hm _ ih =>
    have hl : i < xs.length := (List.getElem?_eq_some_iff.1 hm).1
    cases js with
    | nil => simp only [Producer.assign, put, Producer.plug, Int.toNat_natCast, hm, place_nat hl]
    | cons j js => simp only [Producer.assign, step_pos hm, ih (by simp), put, place_nat hl, Producer.plug, Int.toNat_natCast, hm]

/-! ## Lemmas: the loops -/

theorem insideD_map (p : Pat) (t : Val) (d : List (String × Val)) : insideD p t d = d.map fun kv => (kv.1, rewrite p t kv.2) := by
  induction d with
  | nil => rw [insideD]; rfl
  | cons kv d ih => obtain ⟨k, v⟩ := kv; rw [insideD, ih]; rfl

theorem insideL_map (p : Pat) (t : Val) (xs : List Val) : insideL p t xs = xs.map (rewrite p t) := by
  induction xs with
  | nil => rw [insideL]; rfl
  | cons x xs ih => rw [insideL, ih]; rfl

theorem goD_map (p : Pat) (t : Val) (d : List (String × Val)) (path : List Ix) : goD p t d path = d.map fun kv => (kv.1, go p t kv.2 (path ++ [.key kv.1])) := by
  induction d with
  | nil => rw [goD]; rfl
  | cons kv d ih => obtain ⟨k, v⟩ := kv; rw [goD, ih]; rfl

theorem byKey_map {α β : Type} (f : String → α → β) (l : List (String × α)) :
    byKey (l.map fun kv => (kv.1, f kv.1 kv.2)) = (byKey l).map fun kv => (kv.1, f kv.1 kv.2) :=
  (List.map_mergeSort (fun a _ b _ => by simp)).symm

theorem hit_at {p : Pat} {t root w : Val} {path : List Ix} (hp : p.sane = true) (h : At root path w) :
    hit p t path root = if hits p w then (if path = [] then .error indexErr else .ok (plug root path t)) else .ok root := by
  obtain ⟨o, ho⟩ := getmatch_total p w hp
  simp only [hit, h.get, ho, hits]
  cases o with
  | none => simp
  | some m =>
    simp only [if_true]
    by_cases hn : path = []
    · subst hn; simp [assign]
    · rw [if_neg hn, h.assign hn]

/-- What is to be shown for each part. -/
def GoOk (p : Pat) (t w : Val) : Prop := Tidy w → ∀ path root, At root path w → go p t w path root =
  if hits p (inside p t w) then (if path = [] then .error indexErr else .ok (plug root path t)) else .ok (plug root path (inside p t w))

theorem GoOk.child {p : Pat} {t w : Val} (h : GoOk p t w) (ht : Tidy w) {path : List Ix} {root : Val} (ha : At root path w) (hn : path ≠ []) :
    go p t w path root = .ok (plug root path (rewrite p t w)) := by
  rw [h ht path root ha, rewrite]
  by_cases hh : hits p (inside p t w) = true
  · rw [if_pos hh, if_neg hn, if_pos hh]
  · rw [if_neg hh, if_neg hh]

theorem runAll_ok {p : Pat} {t root w : Val} {path : List Ix} (ha : At root path w) : ∀ (l : List (String × Val)) (e : List (String × Val)),
    (∀ kv ∈ l, GoOk p t kv.2 ∧ Tidy kv.2 ∧ PyDict.get? e kv.1 = some kv.2) → (PyDict.keys l).Nodup →
    runAll (l.map fun kv => (kv.1, go p t kv.2 (path ++ [.key kv.1]))) (plug root path (.dict e)) =
      .ok (plug root path (.dict (l.foldl (fun e kv => PyDict.set e kv.1 (rewrite p t kv.2)) e)))
  | [], e, _, _ => rfl
  | (k, v) :: l, e, h, hn => by
    obtain ⟨h1, h2, h3⟩ := h (k, v) List.mem_cons_self
    have hat : At (plug root path (.dict e)) path (.dict e) := ha.plug _
    rw [keys_cons, List.nodup_cons] at hn
    rw [List.map_cons, runAll]
    simp only
    rw [h1.child h2 (hat.trans (.key h3 (.here _))) (by simp), hat.plug_append]
    simp only [plug, h3]
    rw [ha.plug_plug]
    refine runAll_ok ha l _ (fun kv hkv => ?_) hn.2
    obtain ⟨h4, h5, h6⟩ := h kv (List.mem_cons_of_mem _ hkv)
    refine ⟨h4, h5, ?_⟩
    have hne : k ≠ kv.1 := fun he => hn.1 (he ▸ List.mem_map_of_mem hkv)
    rw [PyDict.get?_set_ne _ _ hne]
    exact h6

theorem set_map {α : Type} {d : List (String × α)} (hd : (PyDict.keys d).Nodup) {k : String} {v : α} (hm : (k, v) ∈ d) (f : α → α) (S : List String) (hk : k ∉ S) :
    PyDict.set (d.map fun kv => (kv.1, if kv.1 ∈ S then f kv.2 else kv.2)) k (f v) = d.map fun kv => (kv.1, if kv.1 ∈ k :: S then f kv.2 else kv.2) := by
  induction d with
  | nil => cases hm
  | cons kv d ih =>
    obtain ⟨k', v'⟩ := kv
    rw [keys_cons, List.nodup_cons] at hd
    rw [List.map_cons, List.map_cons, PyDict.set]
    simp only
    rcases List.mem_cons.1 hm with he | hm
    · injection he with h1 h2
      subst h1; subst h2
      rw [if_pos rfl, if_pos List.mem_cons_self]
      congr 1
      refine List.map_congr_left fun kv hkv => ?_
      have hne : kv.1 ≠ k := fun e => hd.1 (e ▸ List.mem_map_of_mem hkv)
      simp [hne]
    · have hne : k' ≠ k := fun e => hd.1 (e ▸ List.mem_map_of_mem hm)
      rw [if_neg hne, ih hd.2 hm]
      simp [hne]

theorem foldl_set_map {α : Type} {d : List (String × α)} (hd : (PyDict.keys d).Nodup) (f : α → α) : ∀ (l : List (String × α)) (S : List String),
    (∀ kv ∈ l, kv ∈ d ∧ kv.1 ∉ S) → (PyDict.keys l).Nodup →
    l.foldl (fun e kv => PyDict.set e kv.1 (f kv.2)) (d.map fun kv => (kv.1, if kv.1 ∈ S then f kv.2 else kv.2)) =
      d.map fun kv => (kv.1, if kv.1 ∈ PyDict.keys l ∨ kv.1 ∈ S then f kv.2 else kv.2)
  | [], S, _, _ => by simp [PyDict.keys]
  | (k, v) :: l, S, h, hn => by
    rw [keys_cons, List.nodup_cons] at hn
    have h0 := h (k, v) List.mem_cons_self
    rw [List.foldl_cons, set_map hd h0.1 f S h0.2, foldl_set_map hd f l (k :: S) (fun kv hkv => ?_) hn.2]
    · refine List.map_congr_left fun kv _ => ?_
      rw [keys_cons]
      simp only [List.mem_cons]
      congr 2
      simp only [eq_iff_iff]
      tauto
    · refine ⟨(h kv (List.mem_cons_of_mem _ hkv)).1, fun hm => ?_⟩
      rcases List.mem_cons.1 hm with he | hm
      · exact hn.1 (he ▸ List.mem_map_of_mem hkv)
      · exact (h kv (List.mem_cons_of_mem _ hkv)).2 hm

theorem goL_ok {p : Pat} {t root w : Val} {path : List Ix} (ha : At root path w) : ∀ (xs pre : List Val), (∀ x ∈ xs, GoOk p t x ∧ Tidy x) →
    goL p t xs pre.length path (plug root path (.arr (pre ++ xs))) = .ok (plug root path (.arr (pre ++ xs.map (rewrite p t))))
  | [], pre, _ => by rw [goL]; rfl
  | x :: xs, pre, h => by
    obtain ⟨h1, h2⟩ := h x List.mem_cons_self
    have hat : At (plug root path (.arr (pre ++ x :: xs))) path (.arr (pre ++ x :: xs)) := ha.plug _
    have hx : (pre ++ x :: xs)[pre.length]? = some x := by simp
    rw [goL, h1.child h2 (hat.trans (.pos hx (.here _))) (by simp), hat.plug_append]
    simp only [plug, Int.toNat_natCast, hx]
    rw [ha.plug_plug]
    have := goL_ok ha xs (pre ++ [rewrite p t x]) (fun y hy => h y (List.mem_cons_of_mem _ hy))
    simpa using this

theorem go_ok {p : Pat} (hp : p.sane = true) (t w : Val) : GoOk p t w := by
  induction w using val_ind with
  | hd d ih =>
    intro ht path root ha
    have hd : (PyDict.keys d).Nodup := ht [] d (.here _)
    rw [go, goD_map, byKey_map (fun (k : String) (v : Val) => go p t v (path ++ [Ix.key k])) d]
    have hn : (PyDict.keys (byKey d)).Nodup := ((List.mergeSort_perm d _).map _).nodup_iff.2 hd
    have h1 := runAll_ok (p := p) (t := t) ha (byKey d) d (fun kv hkv => by
      have hm := mem_byKey.1 hkv
      exact ⟨ih kv.1 kv.2 hm, ht.key (k := kv.1) hm, PyDict.get?_of_mem hd hm⟩) hn
    rw [ha.plug_same] at h1
    rw [h1]
    have h2 := foldl_set_map hd (rewrite p t) (byKey d) [] (fun kv hkv => ⟨mem_byKey.1 hkv, by simp⟩) hn
    have h3 : (byKey d).foldl (fun e kv => PyDict.set e kv.1 (rewrite p t kv.2)) d = insideD p t d := by
      have h4 : (d.map fun kv => (kv.1, if kv.1 ∈ ([] : List String) then rewrite p t kv.2 else kv.2)) = d := by simp
      rw [h4] at h2
      rw [h2, insideD_map]
      refine List.map_congr_left fun kv hkv => ?_
      have : kv.1 ∈ PyDict.keys (byKey d) := List.mem_map_of_mem (mem_byKey.2 hkv)
      simp [this]
    rw [h3]
    simp only
    rw [hit_at hp (ha.plug _), inside, ha.plug_plug]
  | ha xs ih =>
    intro ht path root ha
    have h1 := goL_ok (p := p) (t := t) ha xs [] (fun x hx => by
      obtain ⟨n, hn, he⟩ := List.getElem_of_mem hx
      exact ⟨ih x hx, ht.pos (i := n) (by rw [List.getElem?_eq_getElem hn, he])⟩)
    simp only [List.length_nil, List.nil_append] at h1
    rw [ha.plug_same] at h1
    rw [go, h1, ← insideL_map]
    simp only
    rw [hit_at hp (ha.plug _), inside, ha.plug_plug]
  | h0 v h1 h2 =>
    intro _ path root ha
    have : go p t v path root = hit p t path root := by
      cases v with
      | dict d => exact absurd rfl (h1 d)
      | arr xs => exact absurd rfl (h2 xs)
      | _ => rw [go] <;> simp
    have hi : inside p t v = v := by
      cases v with
      | dict d => exact absurd rfl (h1 d)
      | arr xs => exact absurd rfl (h2 xs)
      | _ => rw [inside] <;> simp
    rw [this, hit_at hp ha, hi, ha.plug_same]

/-- **C82.** Replacing what matches is rewriting from the inside out.  A part is compared with the pattern after the parts in it were replaced.  If the
whole document matches then, an exception is raised. -/
theorem assignAt_partial {p : Pat} {v : Val} (hp : p.sane = true) (ht : Tidy v) (t : Val) :
    assignAt p v t = if hits p (inside p t v) then .error indexErr else .ok (inside p t v) := by
  rw [assignAt, go_ok hp t v ht [] v (.here v)]
  simp [plug]

/-- "Return a copy of expr with replaced subexpressions at points that match": the whole expression cannot be replaced. -/
theorem assignAt_root_violation : hits (.any []) (.int 1) = true ∧ assignAt (.any []) (.int 1) (.int 2) = .error indexErr := by
  refine ⟨by simp [hits, getmatch, same], ?_⟩
  simp [assignAt, go, hit, get, getmatch, same, assign]

/-- A list that does not match is replaced, since it matches when its element was replaced. -/
theorem assignAt_inner_violation : hits (.or [.lit (.int 1), .arr [.lit (.int 2)]]) (.arr [.int 1]) = false ∧
    assignAt (.or [.lit (.int 1), .arr [.lit (.int 2)]]) (.dict [("x", .arr [.int 1])]) (.int 2) = .ok (.dict [("x", .int 2)]) := by
  refine ⟨by simp [hits, getmatch, matchOr, matchL, same, litEq, num?, Res.app, listMatch, fle], ?_⟩
  have ht : Tidy (.dict [("x", .arr [.int 1])]) := by
    intro js d h
    cases h with
    | here => simp [PyDict.keys]
    | key hm h =>
      simp at hm
      obtain ⟨rfl, rfl⟩ := hm
      cases h with
      | @pos xs i c w js hm h =>
        match i, hm with
        | 0, hm => simp at hm; subst hm; cases h
        | n + 1, hm => simp at hm
  rw [assignAt_partial (by decide) ht]
  simp [inside, insideD, insideL, hits, getmatch, matchOr, matchL, same, litEq, num?, Res.app, listMatch, fle]

end Verif.Producer
