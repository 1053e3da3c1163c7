import Verif.Cart.Export
/-! # Growing trees: from rows to datasets, and the scores of leaves (C85) -/

namespace Verif.Cart
open Avro

/-! ## Specification -/

/-- What a row has in a field. -/
def Word.cell : Word → Cell
  | .real q => .num q
  | .str s => .str s

/-- The order of texts: by code points. -/
def TextLe (a b : String) : Prop := a.toList.map Char.toNat ≤ b.toList.map Char.toNat

/-! ## Texts and codes -/

theorem sortedSet_spec (xs : List String) : (sortedSet xs).Nodup ∧ (∀ s, s ∈ sortedSet xs ↔ s ∈ xs) ∧ (sortedSet xs).Pairwise TextLe := by
  have h : (sortedSet xs).Perm xs.dedup := List.perm_insertionSort _ _
  refine ⟨h.nodup_iff.2 (List.nodup_dedup xs), fun x => by rw [h.mem_iff, List.mem_dedup], ?_⟩
  have tot : Std.Total (fun a b : String => strLe a b = true) := ⟨fun a b => by
    simp only [strLe, decide_eq_true_eq]; exact le_total _ _⟩
  have tr : IsTrans String (fun a b : String => strLe a b = true) := ⟨fun a b c => by
    simp only [strLe, decide_eq_true_eq]; exact le_trans⟩
  have := List.pairwise_insertionSort (fun a b : String => strLe a b = true) xs.dedup
  exact this.imp fun h => by simpa [strLe, TextLe] using h

/-- **C85.** A column of texts and its codes are the same data: reading the codes gives the texts, every code has a name, no name is
there twice, and no name is there without a row. -/
theorem encode_spec (xs : List String) :
    ∃ codes names, encode xs = .cat codes names ∧ decode codes names = xs ∧ codes.length = xs.length ∧ (∀ c ∈ codes, c < names.length) ∧
      names.Nodup ∧ (∀ s, s ∈ names ↔ s ∈ xs) ∧ names.Pairwise TextLe := by
  obtain ⟨h1, h2, h3⟩ := sortedSet_spec xs
  refine ⟨_, _, rfl, ?_, by simp, ?_, h1, h2, h3⟩
  · simp only [decode, List.map_map]
    conv_rhs => rw [← List.map_id xs]
    apply List.map_congr_left
    intro s hs
    have : (sortedSet xs).idxOf s < (sortedSet xs).length := List.idxOf_lt_length_iff.2 ((h2 s).2 hs)
    simp [List.getElem?_eq_getElem this]
  · intro c hc
    obtain ⟨s, hs, rfl⟩ := List.mem_map.1 hc
    exact List.idxOf_lt_length_iff.2 ((h2 s).2 hs)

/-! ## Rows -/

/-- The words of a column. -/
def Raw.words : Raw → List Word
  | .real xs => xs.map .real
  | .str xs => xs.map .str

theorem add_words {r r' : Raw} {x : Word} (h : r.add x = .ok r') : r'.words = r.words ++ [x] := by
  cases r <;> cases x <;> cases h <;> simp [Raw.words]

theorem toNumpy_cell (r : Raw) (i : Nat) (x : Word) (h : r.words[i]? = some x) : cellOf i r.toNumpy = x.cell := by
  cases r with
  | real xs =>
    simp only [Raw.words, List.getElem?_map, Option.map_eq_some_iff] at h
    obtain ⟨q, hq, rfl⟩ := h
    simp [Raw.toNumpy, cellOf, Word.cell, hq]
  | str xs =>
    simp only [Raw.words, List.getElem?_map, Option.map_eq_some_iff] at h
    obtain ⟨s, hs, rfl⟩ := h
    obtain ⟨codes, names, h1, h2, h3, -⟩ := encode_spec xs
    obtain ⟨hi, hs⟩ := List.getElem?_eq_some_iff.1 hs
    have hi' : i < codes.length := by omega
    have : (decode codes names)[i]? = some s := by rw [h2, List.getElem?_eq_getElem hi, hs]
    simp only [decode, List.getElem?_map, List.getElem?_eq_getElem hi', Option.map_some, Option.some.injEq] at this
    simp only [Raw.toNumpy, h1, cellOf, Word.cell, List.getD_eq_getElem _ _ hi', this]

theorem bindR {α β : Type} {x : Res α} {f : α → Res β} {b : β} : (x >>= f) = .ok b ↔ ∃ a, x = .ok a ∧ f a = .ok b := by
  cases x with
  | error e => simp [bind, Except.bind]
  | ok a => simp [bind, Except.bind]

/-- Column `j` after a line has the word of the line at its end. -/
theorem addLine_words {fields fields' : List Raw} {line : List Word} (h : addLine fields line = .ok fields') :
    line.length = fields.length ∧ fields'.map Raw.words = (fields.zip line).map fun p => p.1.words ++ [p.2] := by
  unfold addLine at h
  by_cases hl : line.length = fields.length
  · rw [if_neg (by simpa using hl)] at h
    refine ⟨hl, ?_⟩
    induction line generalizing fields fields' with
    | nil =>
      cases fields with
      | nil => cases h; rfl
      | cons f fs => cases hl
    | cons x line ih =>
      cases fields with
      | nil => cases hl
      | cons f fs =>
        simp only [List.zip_cons_cons, List.mapM_cons] at h
        rw [bindR] at h
        obtain ⟨r, h1, h⟩ := h
        rw [bindR] at h
        obtain ⟨rs, h2, h⟩ := h
        cases h
        simp only [List.map_cons, List.zip_cons_cons, add_words h1, ih h2 (by simpa using hl)]
  · rw [if_pos (by simpa using hl)] at h
    cases h

theorem addLines_take (l count : Nat) (fields : List Raw) (lines : List (List Word)) :
    addLines (some l) count fields lines = addLines none 0 fields (lines.take (l - count)) := by
  have any : ∀ (lines : List (List Word)) (fields : List Raw) (c c' : Nat), addLines none c fields lines = addLines none c' fields lines := by
    intro lines
    induction lines with
    | nil => intros; rfl
    | cons line lines ih =>
      intro fields c c'
      unfold addLines
      cases addLine fields line with
      | error e => rfl
      | ok f => exact ih _ _ _
  induction lines generalizing count fields with
  | nil => simp [addLines]
  | cons line lines ih =>
    unfold addLines
    by_cases hc : count ≥ l
    · rw [show l - count = 0 by omega]
      simp [hc]
    · obtain ⟨k, hk⟩ : ∃ k, l - count = k + 1 := ⟨l - count - 1, by omega⟩
      rw [hk]
      simp only [hc, if_false, List.take_succ_cons]
      cases addLine fields line with
      | error e => rfl
      | ok f =>
        simp only
        rw [ih, any _ _ (0 + 1) 0, show l - (count + 1) = k by omega]

theorem addLines_words {lines : List (List Word)} : ∀ {c : Nat} {fields fields' : List Raw}, addLines none c fields lines = .ok fields' →
    fields'.length = fields.length ∧ (∀ line ∈ lines, line.length = fields.length) ∧
      ∀ (j : Nat) (r r' : Raw), fields[j]? = some r → fields'[j]? = some r' → r'.words = r.words ++ lines.filterMap (·[j]?) := by
  induction lines with
  | nil =>
    intro c fields fields' h
    cases h
    refine ⟨rfl, by simp, ?_⟩
    intro j r r' h1 h2
    rw [h1] at h2
    cases h2
    simp
  | cons line lines ih =>
    intro c fields fields' h
    unfold addLines at h
    simp only at h
    cases hl : addLine fields line with
    | error e => rw [hl] at h; cases h
    | ok f =>
      rw [hl] at h
      obtain ⟨a1, a2⟩ := addLine_words hl
      obtain ⟨b1, b2, b3⟩ := ih h
      have hlen : f.length = fields.length := by
        have := congrArg List.length a2
        simpa [a1] using this
      refine ⟨b1.trans hlen, ?_, ?_⟩
      · intro x hx
        rcases List.mem_cons.1 hx with rfl | hx
        · exact a1
        · rw [b2 x hx, hlen]
      · intro j r r' h1 h2
        obtain ⟨hj, h1'⟩ := List.getElem?_eq_some_iff.1 h1
        have hfj : f[j]? = some (f[j]'(by omega)) := List.getElem?_eq_getElem _
        have hlj : line[j]? = some (line[j]'(by omega)) := List.getElem?_eq_getElem _
        rw [b3 j _ r' hfj h2]
        have := congrArg (fun l => l[j]?) a2
        simp only [List.getElem?_map, hfj, Option.map_some, List.getElem?_zip_eq_some] at this
        have hz : (fields.zip line)[j]? = some (r, line[j]'(by omega)) := List.getElem?_zip_eq_some.2 ⟨h1, hlj⟩
        rw [hz] at this
        simp only [Option.map_some, Option.some.injEq] at this
        rw [this, List.filterMap_cons_some (f := fun x : List Word => x[j]?) hlj]
        simp

/-- **C85.** A dataset has the rows it was made from: row `i` of the dataset is line `i`, all columns have as many rows as there are lines (up to the
limit), and all codes have names without repetition. -/
theorem fromRows_rows {limit : Option Nat} {names : List String} {rows : List (List Word)} {d : Data} (h : fromRows limit names rows = .ok d)
    (hne : rows ≠ []) :
    let used := match limit with | none => rows | some l => rows.take l
    d.names = names ∧ d.fields.length = names.length ∧ (∀ f ∈ d.fields, f.len = used.length) ∧
      (∀ (i : Nat) (line : List Word), used[i]? = some line → rowOf d i = line.map Word.cell) ∧
      ∀ xs ns, Col.cat xs ns ∈ d.fields → (∀ x ∈ xs, x < ns.length) ∧ ns.Nodup := by
  intro used
  cases rows with
  | nil => exact absurd rfl hne
  | cons line rows =>
    unfold fromRows at h
    by_cases hl : names.length = line.length
    · simp only [ne_eq, hl, not_true_eq_false, if_false] at h
      have h' : addLines limit 0 (line.map Raw.of) (line :: rows) = addLines none 0 (line.map Raw.of) used := by
        cases limit with
        | none => rfl
        | some l => rw [addLines_take]; rfl
      rw [h'] at h
      cases ha : addLines none 0 (line.map Raw.of) used with
      | error e => rw [ha] at h; cases h
      | ok fields =>
        rw [ha] at h
        cases h
        obtain ⟨b1, b2, b3⟩ := addLines_words ha
        simp only [List.length_map] at b1 b2
        have hcol : ∀ (j : Nat) (r' : Raw), fields[j]? = some r' → r'.words = used.filterMap (·[j]?) := by
          intro j r' h2
          obtain ⟨hj, -⟩ := List.getElem?_eq_some_iff.1 h2
          have hlj : line[j]? = some (line[j]'(by omega)) := List.getElem?_eq_getElem _
          have := b3 j (Raw.of (line[j]'(by omega))) r' (by simp [List.getElem?_map, hlj]) h2
          rw [this]
          cases line[j]'(by omega) <;> simp [Raw.of, Raw.words]
        have hfull : ∀ (j : Nat), j < line.length → ∀ (ls : List (List Word)), (∀ x ∈ ls, x.length = line.length) →
            (ls.filterMap (·[j]?)).length = ls.length ∧ ∀ (i : Nat) (x : List Word), ls[i]? = some x → (ls.filterMap (·[j]?))[i]? = x[j]? := by
          intro j hj ls
          induction ls with
          | nil => intro _; simp
          | cons a ls ih =>
            intro hls
            have haj : a[j]? = some (a[j]'(by have := hls a (by simp); omega)) := List.getElem?_eq_getElem _
            obtain ⟨i1, i2⟩ := ih fun x hx => hls x (by simp [hx])
            rw [List.filterMap_cons_some (f := fun x : List Word => x[j]?) haj]
            refine ⟨by simp [i1], ?_⟩
            intro i x hx
            cases i with
            | zero => simp only [List.getElem?_cons_zero, Option.some.injEq] at hx ⊢; subst hx; exact haj.symm
            | succ i => simp only [List.getElem?_cons_succ] at hx ⊢; exact i2 i x hx
        refine ⟨rfl, by simp [b1, hl], ?_, ?_, ?_⟩
        · intro f hf
          simp only [List.mem_map] at hf
          obtain ⟨r, hr, rfl⟩ := hf
          obtain ⟨j, hj, rfl⟩ := List.getElem_of_mem hr
          have h1 := hcol j _ (List.getElem?_eq_getElem hj)
          have h2 := (hfull j (by omega) used b2).1
          have h3 : fields[j].toNumpy.len = fields[j].words.length := by
            cases fields[j] <;> simp [Raw.toNumpy, Col.len, Raw.words, encode]
          rw [h3, h1, h2]
        · intro i ln hi
          apply List.ext_getElem?
          intro j
          have hln := b2 ln (List.mem_of_getElem? hi)
          by_cases hj : j < fields.length
          · have hlj : ln[j]? = some (ln[j]'(by omega)) := List.getElem?_eq_getElem _
            have h1 := hcol j _ (List.getElem?_eq_getElem hj)
            have h2 := (hfull j (by omega) used b2).2 i ln hi
            rw [← h1, hlj] at h2
            simp only [rowOf, List.getElem?_map, List.getElem?_eq_getElem hj, Option.map_some, hlj, toNumpy_cell _ _ _ h2]
          · have e1 : fields[j]? = none := List.getElem?_eq_none (by omega)
            have e2 : ln[j]? = none := List.getElem?_eq_none (by omega)
            simp [rowOf, List.getElem?_map, e1, e2]
        · intro xs ns hmem
          obtain ⟨r, hr, hx⟩ := List.mem_map.1 hmem
          cases r with
          | real xs' => cases hx
          | str ss =>
            obtain ⟨codes, names', h1, -, -, h4, h5, -⟩ := encode_spec ss
            simp only [Raw.toNumpy, h1, Col.cat.injEq] at hx
            obtain ⟨rfl, rfl⟩ := hx
            exact ⟨h4, h5⟩
    · simp only [ne_eq, hl, not_false_eq_true, if_true] at h
      cases h

/-- **C85.** The dataset without the predictand has the other fields in their order, and the predictand is the column with its name. -/
theorem fromWhole_spec {d e : Data} {y : Col} {nm : String} (h : fromWhole d nm = .ok (e, y)) (hl : d.names.length = d.fields.length) :
    ∃ k, d.names[k]? = some nm ∧ (∀ j < k, d.names[j]? ≠ some nm) ∧ d.fields[k]? = some y ∧ e.names = d.names.eraseIdx k ∧ e.fields = d.fields.eraseIdx k ∧
      e.names.length = e.fields.length := by
  unfold fromWhole at h
  by_cases hm : nm ∈ d.names
  · rw [if_pos hm] at h
    simp only at h
    have hlt := List.idxOf_lt_length_iff.2 hm
    cases hf : d.fields[d.names.idxOf nm]? with
    | none => rw [hf] at h; cases h
    | some y' =>
      rw [hf] at h
      cases h
      refine ⟨d.names.idxOf nm, ?_, ?_, hf, ?_, ?_, ?_⟩
      · rw [List.getElem?_eq_getElem hlt, List.getElem_idxOf hlt]
      · intro j hj he
        obtain ⟨h1, h2⟩ := List.getElem?_eq_some_iff.1 he
        have h3 : nm ∈ d.names.take (j + 1) := h2 ▸ List.mem_take_iff_getElem.2 ⟨j, by omega, rfl⟩
        have := (List.mem_take_iff_idxOf_lt hm).1 h3
        omega
      · rw [List.eraseIdx_eq_take_drop_succ]
      · rw [List.eraseIdx_eq_take_drop_succ]
      · simp; omega
  · rw [if_neg hm] at h
    cases h

/-! ## Scores -/

/-- **C85.** The score of a leaf of numbers has the least sum of squared differences from them. -/
theorem score_num {ys : List ℚ} {v : Val} (h : score (.num ys) = .ok v) :
    ∃ m, v = .flt (.fin m) ∧ ∀ m', (ys.map fun y => (y - m) ^ 2).sum ≤ (ys.map fun y => (y - m') ^ 2).sum := by
  cases h
  refine ⟨_, rfl, fun m' => ?_⟩
  rw [sum_sq, sum_sq]
  by_cases hn : ys = []
  · subst hn; simp
  have hpos : (0 : ℚ) < ys.length := by exact_mod_cast List.length_pos_of_ne_nil hn
  have e : ys.sum = ys.length * mean ys := by unfold mean total; field_simp
  rw [e]
  nlinarith [mul_nonneg hpos.le (sq_nonneg (mean ys - m'))]

/-- **C85.** The score of a leaf of categories is the first of the most frequent ones. -/
theorem score_cat {codes : List Nat} {names : List String} (hc : codes ≠ []) {v : Val} (h : score (.cat codes names) = .ok v) :
    ∃ k s, names[k]? = some s ∧ v = .str s ∧ (∀ j < names.length, codes.count j ≤ codes.count k) ∧ ∀ j < k, codes.count j < codes.count k := by
  have hpos : (0 : ℚ) < codes.length := by exact_mod_cast List.length_pos_of_ne_nil hc
  unfold score at h
  simp only at h
  have hd : distribution codes names = (List.range names.length).map fun c => (codes.count c : ℚ) / codes.length := by
    unfold distribution
    rw [if_pos (by exact_mod_cast hpos)]
    rfl
  by_cases hn : distribution codes names = []
  · rw [hn] at h; cases h
  obtain ⟨x, pre, post, h1, h2, h3, h4⟩ := argmax_spec _ hn
  rw [h4] at h
  simp only at h
  cases hs : names[pre.length]? with
  | none => rw [hs] at h; cases h
  | some s =>
    rw [hs] at h
    cases h
    have at_ : ∀ j : Nat, j < names.length → (distribution codes names)[j]? = some ((codes.count j : ℚ) / codes.length) := by
      intro j hj
      rw [hd]
      simp [hj]
    have hlen : (distribution codes names).length = names.length := by rw [hd]; simp
    have hk : pre.length < names.length := (List.getElem?_eq_some_iff.1 hs).1
    have hx : x = (codes.count pre.length : ℚ) / codes.length := by
      have := at_ _ hk
      rw [h1] at this
      simpa using this
    refine ⟨_, s, hs, rfl, ?_, ?_⟩
    · intro j hj
      have hj' := at_ j hj
      have hmem : (codes.count j : ℚ) / codes.length ∈ pre ++ x :: post := h1 ▸ List.mem_of_getElem? hj'
      have : (codes.count j : ℚ) / codes.length ≤ x := by
        rcases List.mem_append.1 hmem with hm | hm
        · exact (h2 _ hm).le
        · rcases List.mem_cons.1 hm with hm | hm
          · exact hm.le
          · exact h3 _ hm
      rw [hx, div_le_div_iff_of_pos_right hpos] at this
      exact_mod_cast this
    · intro j hj
      have hj' := at_ j (by omega)
      rw [h1, List.getElem?_append_left hj] at hj'
      have := h2 _ (List.mem_of_getElem? hj')
      rw [hx, div_lt_div_iff_of_pos_right hpos] at this
      exact_mod_cast this

end Verif.Cart
