import Verif.Cart.Model
/-! # Growing trees: who is in which leaf (C85) -/

namespace Verif.Cart
open Avro

/-! ## Specification -/

/-- A column restricted to the rows `rs`. -/
def Col.at (rs : List Nat) : Col → Col
  | .num xs => .num (rs.map (xs.getD · 0))
  | .cat xs names => .cat (rs.map (xs.getD · 0)) names

/-- A dataset restricted to the rows `rs`. -/
def Data.at (rs : List Nat) (d : Data) : Data := ⟨d.fields.map (Col.at rs), d.names⟩

/-- Row `i` of the whole dataset passes the split. -/
def Goes (d : Data) (s : Split) (i : Nat) : Prop :=
  (∃ xs c, d.fields[s.index]? = some (.num xs) ∧ s.cut = .num c ∧ xs.getD i 0 ≤ c) ∨
  (∃ xs ns cs, d.fields[s.index]? = some (.cat xs ns) ∧ s.cut = .cats cs ∧ xs.getD i 0 ∈ cs)

/-- The kind of split belongs to the kind of field. -/
def Suits (d : Data) (s : Split) : Prop :=
  (∃ xs c, d.fields[s.index]? = some (.num xs) ∧ s.cut = .num c) ∨ (∃ xs ns cs, d.fields[s.index]? = some (.cat xs ns) ∧ s.cut = .cats cs)

/-- The tree splits the rows `rs` of the whole dataset: a leaf has all of them; in an inner node those that pass the split are split by
the pass branch and the others by the fail branch, and neither is without rows. -/
inductive Splits (d : Data) (y : Col) : List Nat → Node → Prop
  | leaf {rs : List Nat} {t : Option Split} : Splits d y rs (.leaf (d.at rs) (y.at rs) t)
  | node {rs ps fs : List Nat} {s : Split} {p f : Node} : Suits d s → ps.Sublist rs → fs.Sublist rs →
      (∀ i, i ∈ ps ↔ i ∈ rs ∧ Goes d s i) → (∀ i, i ∈ fs ↔ i ∈ rs ∧ ¬ Goes d s i) →
      ps ≠ [] → fs ≠ [] → (ps ++ fs).Perm rs → Splits d y ps p → Splits d y fs f → Splits d y rs (.node (d.at rs) (y.at rs) s p f)

/-- A dataset and a predictand with `n` rows; the codes have names. -/
structure Sound (n : Nat) (d : Data) (y : Col) : Prop where
  some_field : d.fields ≠ []
  names : d.names.length = d.fields.length
  len : ∀ f ∈ d.fields, f.len = n
  ylen : y.len = n
  codes : ∀ xs ns, Col.cat xs ns ∈ d.fields → ∀ x ∈ xs, x < ns.length
  ycodes : ∀ xs ns, y = Col.cat xs ns → ∀ x ∈ xs, x < ns.length

/-- The function orders the positions by their numbers. -/
def Sorts (argsort : List ℚ → List Nat) : Prop :=
  ∀ xs, (argsort xs).Perm (List.range xs.length) ∧ ((argsort xs).map (xs.getD · 0)).Pairwise (· ≤ ·)

/-! ## Selections -/

theorem keep_map {α : Type} (rs : List Nat) (p : Nat → Bool) (f : Nat → α) : keep (rs.map p) (rs.map f) = (rs.filter p).map f := by
  induction rs with
  | nil => rfl
  | cons a rs ih =>
    unfold keep at ih ⊢
    simp only [List.map_cons, List.zip_cons_cons, List.filter_cons]
    cases h : p a <;> simp [ih]

theorem select_at (rs : List Nat) (p : Nat → Bool) (c : Col) : (c.at rs).select (rs.map p) = c.at (rs.filter p) := by
  cases c <;> simp [Col.at, Col.select, keep_map]

theorem dselect_at (rs : List Nat) (p : Nat → Bool) (d : Data) : (d.at rs).select (rs.map p) = d.at (rs.filter p) := by
  simp only [Data.at, Data.select, List.map_map, Data.mk.injEq, and_true]
  exact List.map_congr_left fun c _ => select_at rs p c

theorem at_len (rs : List Nat) (c : Col) : (c.at rs).len = rs.length := by cases c <;> simp [Col.at, Col.len]

theorem map_getD_range {α : Type} (xs : List α) (d : α) : (List.range xs.length).map (xs.getD · d) = xs := by
  apply List.ext_getElem
  · simp
  · intro i h1 h2
    simp [List.getElem?_eq_getElem h2]

theorem at_all {c : Col} {n : Nat} (h : c.len = n) : c.at (List.range n) = c := by
  cases c <;> simp only [Col.len] at h <;> subst h <;> simp only [Col.at, map_getD_range]

theorem data_at_all {d : Data} {n : Nat} (h : ∀ f ∈ d.fields, f.len = n) : d.at (List.range n) = d := by
  cases d with
  | mk fs ns =>
    simp only [Data.at, Data.mk.injEq, and_true]
    have : fs.map (Col.at (List.range n)) = fs.map id := List.map_congr_left fun c hc => at_all (h c hc)
    rw [this, List.map_id]

/-! ## One split -/

theorem at_field (rs : List Nat) (d : Data) (i : Nat) : (d.at rs).fields[i]? = d.fields[i]?.map (Col.at rs) := by
  simp [Data.at]

/-- Row `i` passes, as a boolean. -/
def goesB (d : Data) (s : Split) (i : Nat) : Bool :=
  match d.fields[s.index]?, s.cut with
  | some (.num xs), .num c => decide (xs.getD i 0 ≤ c)
  | some (.cat xs _), .cats cs => decide (xs.getD i 0 ∈ cs)
  | _, _ => false

theorem goesB_iff (d : Data) (s : Split) (i : Nat) : goesB d s i = true ↔ Goes d s i := by
  unfold goesB Goes
  cases hf : d.fields[s.index]? with
  | none => simp
  | some f => cases f <;> cases hc : s.cut <;> simp

/-- What `splitOnce` does with the rows `rs`. -/
theorem splitOnce_cases {w : World} {d : Data} {y : Col} {rs : List Nat} {t : Node} (h : splitOnce w (d.at rs) (y.at rs) = .ok t) :
    (∃ s, bestField w (y.at rs) none 0 (d.at rs).fields = .ok (some s) ∧ t = .leaf (d.at rs) (y.at rs) (some s) ∧ Suits d s ∧
      (rs.filter (goesB d s) = [] ∨ rs.filter (fun i => !goesB d s i) = [])) ∨
    ∃ s, bestField w (y.at rs) none 0 (d.at rs).fields = .ok (some s) ∧ Suits d s ∧
      rs.filter (goesB d s) ≠ [] ∧ rs.filter (fun i => !goesB d s i) ≠ [] ∧
      t = .node (d.at rs) (y.at rs) s (.leaf (d.at (rs.filter (goesB d s))) (y.at (rs.filter (goesB d s))) none)
        (.leaf (d.at (rs.filter fun i => !goesB d s i)) (y.at (rs.filter fun i => !goesB d s i)) none) := by
  unfold splitOnce at h
  cases hb : bestField w (y.at rs) none 0 (d.at rs).fields with
  | error e => rw [hb] at h; cases h
  | ok o =>
    cases o with
    | none => rw [hb] at h; cases h
    | some s =>
      rw [hb] at h
      simp only at h
      rw [at_field] at h
      cases hf : d.fields[s.index]? with
      | none => rw [hf] at h; cases h
      | some f =>
        rw [hf] at h
        simp only [Option.map_some] at h
        cases hp : passSelection (f.at rs) s.cut with
        | error e => rw [hp] at h; cases h
        | ok sel =>
          rw [hp] at h
          simp only at h
          have hsel : sel = rs.map (goesB d s) ∧ Suits d s := by
            cases f with
            | num xs =>
              cases hc : s.cut with
              | num c =>
                rw [hc] at hp
                simp only [Col.at, passSelection, Except.ok.injEq, List.map_map] at hp
                rw [← hp]
                refine ⟨List.map_congr_left fun i _ => ?_, .inl ⟨xs, c, hf, hc⟩⟩
                simp [goesB, hf, hc]
              | cats cs => rw [hc] at hp; cases hp
            | cat xs ns =>
              cases hc : s.cut with
              | num c => rw [hc] at hp; cases hp
              | cats cs =>
                rw [hc] at hp
                simp only [Col.at, passSelection, Except.ok.injEq, List.map_map] at hp
                rw [← hp]
                refine ⟨List.map_congr_left fun i _ => ?_, .inr ⟨xs, ns, cs, hf, hc⟩⟩
                simp [goesB, hf, hc]
          obtain ⟨rfl, hsu⟩ := hsel
          have hnot : (rs.map (goesB d s)).map not = rs.map fun i => !goesB d s i := by simp
          rw [hnot, dselect_at, dselect_at, select_at, select_at] at h
          have hlen : ∀ qs : List Nat, (d.at qs).len = .ok qs.length := by
            intro qs
            unfold Data.len Data.at
            cases hd : d.fields with
            | nil => rw [hd] at hf; simp at hf
            | cons g gs => simp [at_len]
          rw [hlen, hlen] at h
          simp only at h
          by_cases hpos : (rs.filter (goesB d s)).length > 0 ∧ (rs.filter fun i => !goesB d s i).length > 0
          · rw [if_pos hpos] at h
            refine .inr ⟨s, rfl, hsu, ?_, ?_, (Except.ok.inj h).symm⟩
            · exact List.ne_nil_of_length_pos hpos.1
            · exact List.ne_nil_of_length_pos hpos.2
          · rw [if_neg hpos] at h
            refine .inl ⟨s, rfl, (Except.ok.inj h).symm, hsu, ?_⟩
            by_cases h1 : rs.filter (goesB d s) = []
            · exact .inl h1
            · by_cases h2 : (rs.filter fun i => !goesB d s i) = []
              · exact .inr h2
              · exact absurd ⟨List.length_pos_of_ne_nil h1, List.length_pos_of_ne_nil h2⟩ hpos

theorem splits_node {d : Data} {y : Col} {rs : List Nat} {s : Split} {p f : Node} (hs : Suits d s)
    (h1 : rs.filter (goesB d s) ≠ []) (h2 : (rs.filter fun i => !goesB d s i) ≠ [])
    (hp : Splits d y (rs.filter (goesB d s)) p) (hf : Splits d y (rs.filter fun i => !goesB d s i) f) :
    Splits d y rs (.node (d.at rs) (y.at rs) s p f) := by
  refine .node hs List.filter_sublist List.filter_sublist ?_ ?_ h1 h2 ?_ hp hf
  · intro i
    rw [List.mem_filter, goesB_iff]
  · intro i
    rw [List.mem_filter, ← goesB_iff]
    simp
  · exact List.filter_append_perm (goesB d s) rs

/-- **C85.** The tree that `splitUntil` makes splits the rows, whatever the condition. -/
theorem splitUntil_splits {w : World} {condition : Node → Nat → Bool} {d : Data} {y : Col} (fuel depth : Nat) (rs : List Nat) (t : Node)
    (h : splitUntil w condition fuel depth (d.at rs) (y.at rs) = .ok t) : Splits d y rs t := by
  induction fuel generalizing depth rs t with
  | zero =>
    unfold splitUntil at h
    by_cases hc : canSplit (y.at rs) = true
    · rw [if_pos hc] at h; cases h
    · rw [if_neg hc] at h; cases h; exact .leaf
  | succ fuel ih =>
    unfold splitUntil at h
    by_cases hc : canSplit (y.at rs) = true
    · rw [if_pos hc] at h
      simp only at h
      cases ho : splitOnce w (d.at rs) (y.at rs) with
      | error e => rw [ho] at h; cases h
      | ok n =>
        rw [ho] at h
        rcases splitOnce_cases ho with ⟨s, -, rfl, -, -⟩ | ⟨s, -, hs, h1, h2, rfl⟩
        · cases h; exact .leaf
        · simp only at h
          split at h
          · cases hp : splitUntil w condition fuel (depth + 1) (d.at (rs.filter (goesB d s))) (y.at (rs.filter (goesB d s))) with
            | error e => rw [hp] at h; cases h
            | ok p =>
              cases hf : splitUntil w condition fuel (depth + 1) (d.at (rs.filter fun i => !goesB d s i))
                  (y.at (rs.filter fun i => !goesB d s i)) with
              | error e => rw [hp, hf] at h; cases h
              | ok f =>
                rw [hp, hf] at h
                cases h
                exact splits_node hs h1 h2 (ih _ _ _ hp) (ih _ _ _ hf)
          · cases h
            exact splits_node hs h1 h2 .leaf .leaf
    · rw [if_neg hc] at h; cases h; exact .leaf

/-- **C85.** The tree splits all rows of the dataset. -/
theorem grow_splits {w : World} {condition : Node → Nat → Bool} {d : Data} {y : Col} {n : Nat} (hd : Sound n d y) {t : Node}
    (h : grow w condition d y = .ok t) : Splits d y (List.range n) t := by
  unfold grow at h
  rw [← data_at_all hd.len, ← at_all hd.ylen] at h
  exact splitUntil_splits _ _ _ _ h

/-! ## Consequences -/

/-- The leaf that row `i` comes to. -/
noncomputable def leafOf (d : Data) (i : Nat) : Node → Node
  | .leaf e y t => .leaf e y t
  | .node _ _ s p f => open Classical in if Goes d s i then leafOf d i p else leafOf d i f

/-- The rows of each leaf, from left to right, with the leaf. -/
inductive LeafRows (d : Data) (y : Col) : Node → List (List Nat × Node) → Prop
  | leaf {rs : List Nat} {t : Option Split} : LeafRows d y (.leaf (d.at rs) (y.at rs) t) [(rs, .leaf (d.at rs) (y.at rs) t)]
  | node {e : Data} {z : Col} {s : Split} {p f : Node} {l r : List (List Nat × Node)} : LeafRows d y p l → LeafRows d y f r →
      LeafRows d y (.node e z s p f) (l ++ r)

/-- **C85.** Every row comes to exactly one leaf: the rows of the leaves, taken together, are the rows of the tree; each leaf has the
dataset and the predictand of its rows; none is empty; the order of the rows is kept. -/
theorem splits_leaves {d : Data} {y : Col} {rs : List Nat} {t : Node} (h : Splits d y rs t) (hne : rs ≠ []) (hnd : rs.Nodup) :
    ∃ ls : List (List Nat × Node), LeafRows d y t ls ∧ (ls.map Prod.fst).flatten.Perm rs ∧
      (∀ l ∈ ls, l.1 ≠ [] ∧ l.1.Sublist rs ∧ l.2.isLeaf = true ∧ l.2.data = d.at l.1 ∧ l.2.y = y.at l.1) ∧
      ls.map Prod.snd = (walkLeaves t).map Prod.fst ∧
      ∀ l ∈ ls, ∀ i ∈ l.1, leafOf d i t = l.2 := by
  have wl : ∀ (t : Node) (k : Nat), ((walkNodes true k t).filter (·.1.isLeaf)).map Prod.fst = (walkLeaves t).map Prod.fst := by
    intro t
    unfold walkLeaves
    have : ∀ (t : Node) (k m : Nat), ((walkNodes true k t).filter (·.1.isLeaf)).map Prod.fst =
        ((walkNodes true m t).filter (·.1.isLeaf)).map Prod.fst := by
      intro t
      induction t with
      | leaf => intro k m; simp [walkNodes, Node.isLeaf]
      | node d y s p f hp hf =>
        intro k m
        simp only [walkNodes, if_true, List.filter_append, List.map_append]
        rw [hp (k + 1) (m + 1), hf (k + 1) (m + 1)]
        simp [Node.isLeaf]
    exact fun k => this t k 0
  induction h with
  | leaf =>
    refine ⟨[(_, _)], .leaf, by simp, ?_, by simp [walkLeaves, walkNodes, Node.isLeaf], ?_⟩
    · intro l hl
      simp at hl
      subst hl
      exact ⟨hne, List.Sublist.refl _, rfl, rfl, rfl⟩
    · intro l hl i hi
      simp at hl
      subst hl
      rfl
  | @node rs ps fs s p f hs hps hfs hp hf hp0 hf0 hperm h1 h2 ih1 ih2 =>
    obtain ⟨lp, a1, a2, a3, a4, a5⟩ := ih1 hp0 (hps.nodup hnd)
    obtain ⟨lf, b1, b2, b3, b4, b5⟩ := ih2 hf0 (hfs.nodup hnd)
    refine ⟨lp ++ lf, .node a1 b1, ?_, ?_, ?_, ?_⟩
    · rw [List.map_append, List.flatten_append]
      exact (a2.append b2).trans hperm
    · intro l hl
      rcases List.mem_append.1 hl with hl | hl
      · obtain ⟨c1, c2, c3⟩ := a3 l hl
        exact ⟨c1, c2.trans hps, c3⟩
      · obtain ⟨c1, c2, c3⟩ := b3 l hl
        exact ⟨c1, c2.trans hfs, c3⟩
    · rw [List.map_append, a4, b4]
      unfold walkLeaves
      simp only [walkNodes, if_true, List.filter_append, List.map_append]
      rw [wl p 1, wl f 1]
      simp [Node.isLeaf, walkLeaves]
    · intro l hl i hi
      rcases List.mem_append.1 hl with hl | hl
      · have hg := ((hp i).1 ((a3 l hl).2.1.subset hi)).2
        simp only [leafOf, hg, if_true]
        exact a5 l hl i hi
      · have hg := ((hf i).1 ((b3 l hl).2.1.subset hi)).2
        simp only [leafOf, hg, if_false]
        exact b5 l hl i hi

/-- **C85.** The tree has its leaves at a depth of at most `max 1 maxDepth` (a root that can be split is always split). -/
theorem splitUntil_depth {w : World} {k : Nat} {d : Data} {y : Col} (fuel depth : Nat) (rs : List Nat) (t : Node)
    (h : splitUntil w (fun _ depth => decide (depth < k)) fuel depth (d.at rs) (y.at rs) = .ok t) (hd : depth ≤ max 1 k) :
    ∀ m, ∀ p ∈ walkNodes true m t, p.2 + depth ≤ m + 1 + max 1 k := by
  induction fuel generalizing depth rs t with
  | zero =>
    unfold splitUntil at h
    by_cases hc : canSplit (y.at rs) = true
    · rw [if_pos hc] at h; cases h
    · rw [if_neg hc] at h; cases h
      intro m p hp
      simp [walkNodes] at hp
      subst hp
      simp only
      omega
  | succ fuel ih =>
    unfold splitUntil at h
    by_cases hc : canSplit (y.at rs) = true
    · rw [if_pos hc] at h
      simp only at h
      cases ho : splitOnce w (d.at rs) (y.at rs) with
      | error e => rw [ho] at h; cases h
      | ok n =>
        rw [ho] at h
        rcases splitOnce_cases ho with ⟨s, -, rfl, -, -⟩ | ⟨s, -, hs, h1, h2, rfl⟩
        · cases h
          intro m p hp
          simp [walkNodes] at hp
          subst hp
          simp only
          omega
        · simp only at h
          split at h
          · next hdk =>
            simp only [decide_eq_true_eq] at hdk
            cases hp : splitUntil w (fun _ depth => decide (depth < k)) fuel (depth + 1) (d.at (rs.filter (goesB d s)))
                (y.at (rs.filter (goesB d s))) with
            | error e => rw [hp] at h; cases h
            | ok p =>
              cases hf : splitUntil w (fun _ depth => decide (depth < k)) fuel (depth + 1) (d.at (rs.filter fun i => !goesB d s i))
                  (y.at (rs.filter fun i => !goesB d s i)) with
              | error e => rw [hp, hf] at h; cases h
              | ok f =>
                rw [hp, hf] at h
                cases h
                intro m q hq
                have i1 := ih _ _ _ hp (by omega) (m + 1)
                have i2 := ih _ _ _ hf (by omega) (m + 1)
                simp only [walkNodes, if_true, List.append_nil, List.cons_append, List.nil_append, List.mem_cons,
                  List.mem_append] at hq
                rcases hq with rfl | hq | hq
                · simp only; omega
                · have := i1 q hq; omega
                · have := i2 q hq; omega
          · cases h
            intro m q hq
            simp [walkNodes] at hq
            rcases hq with rfl | rfl | rfl <;> simp only <;> omega
    · rw [if_neg hc] at h; cases h
      intro m p hp
      simp [walkNodes] at hp
      subst hp
      simp only
      omega

/-- **C85.** `splitMaxDepth`: no node is deeper than `maxDepth` (or 1). -/
theorem splitMaxDepth_depth {w : World} {k n : Nat} {d : Data} {y : Col} (hd : Sound n d y) {t : Node}
    (h : splitMaxDepth w k d y = .ok t) : ∀ p ∈ walkNodes true 0 t, p.2 ≤ max 1 k := by
  intro p hp
  unfold splitMaxDepth grow at h
  rw [← data_at_all hd.len, ← at_all hd.ylen] at h
  have := splitUntil_depth _ _ _ _ h (by omega) 0 p hp
  omega

end Verif.Cart
