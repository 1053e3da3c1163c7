import Verif.Engine.Model
/-! # Helper lemmas about the engine model -/

namespace Verif.Engine
open Verif.Avro Verif.Path

@[simp] theorem upd_same {α : Type _} (f : Nat → α) (i : Nat) (a : α) : upd f i a i = a := by
  simp [upd]

theorem upd_ne {α : Type _} (f : Nat → α) {i j : Nat} (a : α) (h : j ≠ i) : upd f i a j = f j := by
  simp [upd, h]

/-! ## A generic frame lemma for `updateM` -/

section
variable {σ : Type _} (R : σ → σ → Prop) (hr : ∀ s, R s s) (ht : ∀ a b c, R a b → R b c → R a c)
  {f : Val → SM σ Val} (hf : ∀ v s, R s (f v s).2)
include hr ht hf

theorem updDict_frame (k : String) (d : List (String × Val)) (s : σ) :
    R s (updDict f k d s).2 := by
  induction d generalizing s with
  | nil => exact hr s
  | cons kv d ih =>
    obtain ⟨k', v⟩ := kv
    simp only [updDict]
    split
    · cases hfv : f v s with
      | mk r s1 =>
        have h1 : R s s1 := by have := hf v s; rwa [hfv] at this
        cases r with
        | error e => exact h1
        | ok v' =>
          have h2 := ih s1
          cases hd : updDict f k d s1 with
          | mk r s2 =>
            rw [hd] at h2
            simp only [hd]
            cases r <;> exact ht _ _ _ h1 h2
    · have h2 := ih s
      cases hd : updDict f k d s with
      | mk r s2 =>
        rw [hd] at h2
        cases r <;> exact h2

theorem updList_frame (i j : Int) (xs : List Val) (s : σ) :
    R s (updList f i j xs s).2 := by
  induction xs generalizing s j with
  | nil => exact hr s
  | cons x xs ih =>
    simp only [updList]
    split
    · cases hfv : f x s with
      | mk r s1 =>
        have h1 : R s s1 := by have := hf x s; rwa [hfv] at this
        cases r with
        | error e => exact h1
        | ok v' =>
          have h2 := ih (j + 1) s1
          cases hd : updList f i (j + 1) xs s1 with
          | mk r s2 =>
            rw [hd] at h2
            simp only [hd]
            cases r <;> exact ht _ _ _ h1 h2
    · have h2 := ih (j + 1) s
      cases hd : updList f i (j + 1) xs s with
      | mk r s2 =>
        rw [hd] at h2
        cases r <;> exact h2

end

theorem updateM_frame {σ : Type _} (R : σ → σ → Prop) (hr : ∀ s, R s s)
    (ht : ∀ a b c, R a b → R b c → R a c) {f : Val → SM σ Val} (hf : ∀ v s, R s (f v s).2)
    (a m : Int) (p : Path) (v : Val) (s : σ) : R s (updateM a m f p v s).2 := by
  induction p generalizing v s with
  | nil => exact hf v s
  | cons e p ih =>
    simp only [updateM]
    split
    · next d =>
      split
      · next k =>
        split
        · exact hr s
        · have := updDict_frame R hr ht (f := updateM a m f p) ih k d s
          cases hd : updDict (updateM a m f p) k d s with
          | mk r s2 => rw [hd] at this; cases r <;> exact this
      · split <;> exact hr s
    · next xs =>
      split
      · next i =>
        split
        · exact hr s
        · have := updList_frame R hr ht (f := updateM a m f p) ih i 0 xs s
          cases hd : updList (updateM a m f p) i 0 xs s with
          | mk r s2 => rw [hd] at this; cases r <;> exact this
      · exact hr s
    · exact hr s

/-! ## What running a body can change -/

/-- The object ids an instance refers to. -/
def ids (m : PyDict String Nat) : List Nat := m.map Prod.snd

theorem mem_ids_of_get? {m : PyDict String Nat} {n : String} {i : Nat}
    (h : PyDict.get? m n = some i) : i ∈ ids m :=
  List.mem_map.2 ⟨(n, i), PyDict.mem_of_get? h, rfl⟩

/-- A body changes only the values of its own cells and the dicts of its own pools. -/
structure Frame (cs ps : PyDict String Nat) (o : Nat) (w w' : World) : Prop where
  pool : w'.pool = w.pool
  cellRest : ∀ i, w'.cell i = { w.cell i with value := (w'.cell i).value }
  cellOther : ∀ i, i ∉ ids cs → w'.cell i = w.cell i
  dictOther : ∀ r, (∀ i ∈ ids ps, (w.pool i).value ≠ r) → w'.dict r = w.dict r
  nextCell : w'.nextCell = w.nextCell
  nextPool : w'.nextPool = w.nextPool
  nextDict : w'.nextDict = w.nextDict
  emittedOther : ∀ o', o' ≠ o → w'.emitted o' = w.emitted o'

theorem Frame.refl (cs ps : PyDict String Nat) (o : Nat) (w : World) : Frame cs ps o w w :=
  ⟨rfl, fun _ => rfl, fun _ _ => rfl, fun _ _ => rfl, rfl, rfl, rfl, fun _ _ => rfl⟩

theorem Frame.trans {cs ps : PyDict String Nat} {o : Nat} {a b c : World}
    (h1 : Frame cs ps o a b) (h2 : Frame cs ps o b c) : Frame cs ps o a c where
  pool := by rw [h2.pool, h1.pool]
  cellRest i := by
    rw [h2.cellRest i, h1.cellRest i]
  cellOther i hi := by rw [h2.cellOther i hi, h1.cellOther i hi]
  dictOther r hr := by
    rw [h2.dictOther r (by rw [h1.pool]; exact hr), h1.dictOther r hr]
  nextCell := by rw [h2.nextCell, h1.nextCell]
  nextPool := by rw [h2.nextPool, h1.nextPool]
  nextDict := by rw [h2.nextDict, h1.nextDict]
  emittedOther o' ho := by rw [h2.emittedOther o' ho, h1.emittedOther o' ho]

theorem Frame.setCell {cs : PyDict String Nat} (ps : PyDict String Nat) (o : Nat) (w : World) {i : Nat}
    (v : Val) (hi : i ∈ ids cs) : Frame cs ps o w (w.setCell i v) where
  pool := rfl
  cellRest j := by
    by_cases h : j = i
    · subst h; simp [World.setCell]
    · simp [World.setCell, upd_ne _ _ h]
  cellOther j hj := by
    have : j ≠ i := fun h => hj (h ▸ hi)
    simp [World.setCell, upd_ne _ _ this]
  dictOther _ _ := rfl
  nextCell := rfl
  nextPool := rfl
  nextDict := rfl
  emittedOther _ _ := rfl

theorem Frame.setDict (cs : PyDict String Nat) {ps : PyDict String Nat} (o : Nat) (w : World) {i : Nat}
    (d : PyDict String Val) (hi : i ∈ ids ps) : Frame cs ps o w (w.setDict (w.pool i).value d) where
  pool := rfl
  cellRest _ := rfl
  cellOther _ _ := rfl
  dictOther r hr := by
    have : r ≠ (w.pool i).value := fun h => hr i hi h.symm
    simp [World.setDict, upd_ne _ _ this]
  nextCell := rfl
  nextPool := rfl
  nextDict := rfl
  emittedOther _ _ := rfl

theorem cellUpdate_frame {cs ps : PyDict String Nat} {o : Nat} {i : Nat} (hi : i ∈ ids cs) (path : Path)
    {f : Val → SM World Val} (hf : ∀ v w, Frame cs ps o w (f v w).2) (w : World) :
    Frame cs ps o w (cellUpdate i path f w).2 := by
  have h := updateM_frame (Frame cs ps o) (Frame.refl cs ps o) (fun _ _ _ => Frame.trans) hf
    2006 2007 path (w.cell i).value w
  unfold cellUpdate
  cases hu : updateM 2006 2007 f path (w.cell i).value w with
  | mk r w1 =>
    rw [hu] at h
    cases r with
    | ok v => exact h.trans (Frame.setCell ps o w1 v hi)
    | error e => exact h

theorem poolUpdate_frame {cs ps : PyDict String Nat} {o : Nat} {i : Nat} (hi : i ∈ ids ps) (hd : String)
    (tl : Path) (init : Val) {f : Val → SM World Val} (hf : ∀ v w, Frame cs ps o w (f v w).2)
    (w : World) : Frame cs ps o w (poolUpdate i hd tl init f w).2 := by
  unfold poolUpdate
  simp only
  generalize hw1 : (if PyDict.has (w.dict (w.pool i).value) hd = true then w
    else w.setDict (w.pool i).value (PyDict.set (w.dict (w.pool i).value) hd init)) = w1
  have h1 : Frame cs ps o w w1 := by
    subst hw1
    split
    · exact Frame.refl cs ps o w
    · exact Frame.setDict cs o w _ hi
  cases ho : PyDict.get? (w1.dict (w.pool i).value) hd with
  | none => exact h1
  | some old =>
    have h := updateM_frame (Frame cs ps o) (Frame.refl cs ps o) (fun _ _ _ => Frame.trans) hf
      2010 2011 tl old w1
    simp only
    cases hu : updateM 2010 2011 f tl old w1 with
    | mk r w2 =>
      rw [hu] at h
      cases r with
      | ok v => exact h1.trans (h.trans (Frame.setDict cs o w2 _ hi))
      | error e => exact h1.trans h

theorem run_frame (cs ps : PyDict String Nat) (o : Nat) (p : Prog) (w : World) :
    Frame cs ps o w (run cs ps o p w).2 := by
  induction p generalizing w with
  | ret v => exact Frame.refl cs ps o w
  | raise e => exact Frame.refl cs ps o w
  | cellGet name path k ih =>
    simp only [run]
    split
    · exact Frame.refl cs ps o w
    · split
      · exact ih _ w
      · exact Frame.refl cs ps o w
  | cellTo name path repl k ihr ihk =>
    simp only [run]
    split
    · exact Frame.refl cs ps o w
    · next i hi =>
      have h := cellUpdate_frame (mem_ids_of_get? hi) path
        (f := fun v => run cs ps o (repl v)) (fun v w => ihr v w) w
      cases hu : cellUpdate i path (fun v => run cs ps o (repl v)) w with
      | mk r w1 =>
        rw [hu] at h
        cases r with
        | ok v => exact h.trans (ihk v w1)
        | error e => exact h
  | poolGet name path k ih =>
    simp only [run]
    split
    · exact Frame.refl cs ps o w
    · split
      · exact ih _ w
      · exact Frame.refl cs ps o w
  | poolTo name hd tl repl init k ihr ihk =>
    simp only [run]
    split
    · exact Frame.refl cs ps o w
    · next i hi =>
      have h := poolUpdate_frame (mem_ids_of_get? hi) hd tl init
        (f := fun v => run cs ps o (repl v)) (fun v w => ihr v w) w
      cases hu : poolUpdate i hd tl init (fun v => run cs ps o (repl v)) w with
      | mk r w1 =>
        rw [hu] at h
        cases r with
        | ok v => exact h.trans (ihk v w1)
        | error e => exact h
  | poolDel name item k ih =>
    simp only [run]
    split
    · exact Frame.refl cs ps o w
    · next i hi => exact (Frame.setDict cs o w _ (mem_ids_of_get? hi)).trans (ih _)
  | tryCatch body c k ihb ihk =>
    simp only [run]
    have hb := ihb w
    cases hu : run cs ps o body w with
    | mk r w1 =>
      rw [hu] at hb
      cases r with
      | ok v => exact hb.trans (ihk v w1)
      | error e =>
        simp only
        split
        · exact hb.trans (ihk _ w1)
        · exact hb
  | emit v k ih =>
    simp only [run]
    have h1 : Frame cs ps o w { w with emitted := upd w.emitted o (w.emitted o ++ [v]) } :=
      ⟨rfl, fun _ => rfl, fun _ _ => rfl, fun _ _ => rfl, rfl, rfl, rfl,
        fun _ ho => by simp [upd_ne _ _ ho]⟩
    exact h1.trans (ih _)

/-! ## Backups -/

/-- Effect of the cell save loop. -/
structure SavedCells (l : List Nat) (w w' : World) : Prop where
  pool : w'.pool = w.pool
  dict : w'.dict = w.dict
  nextDict : w'.nextDict = w.nextDict
  nextCell : w'.nextCell = w.nextCell
  nextPool : w'.nextPool = w.nextPool
  emitted : w'.emitted = w.emitted
  same : ∀ i, w'.cell i = { w.cell i with oldvalue := (w'.cell i).oldvalue }
  other : ∀ i, i ∉ l → w'.cell i = w.cell i
  saved : ∀ i ∈ l, (w.cell i).rollback = true → (w'.cell i).oldvalue = some (w.cell i).value
  unsaved : ∀ i, (w.cell i).rollback = false → w'.cell i = w.cell i

theorem saveCells_spec (l : List Nat) (w : World) : SavedCells l w (l.foldl saveCell w) := by
  induction l generalizing w with
  | nil => exact ⟨rfl, rfl, rfl, rfl, rfl, rfl, fun _ => rfl, fun _ _ => rfl, by simp, fun _ _ => rfl⟩
  | cons i l ih =>
    simp only [List.foldl_cons]
    have h := ih (saveCell w i)
    have hs : ∀ j, (saveCell w i).cell j = { w.cell j with oldvalue := ((saveCell w i).cell j).oldvalue } := by
      intro j
      unfold saveCell
      split
      · by_cases hj : j = i
        · subst hj; simp
        · simp [upd_ne _ _ hj]
      · rfl
    refine ⟨?_, ?_, ?_, ?_, ?_, ?_, ?_, ?_, ?_, ?_⟩
    · rw [h.pool]; unfold saveCell; split <;> rfl
    · rw [h.dict]; unfold saveCell; split <;> rfl
    · rw [h.nextDict]; unfold saveCell; split <;> rfl
    · rw [h.nextCell]; unfold saveCell; split <;> rfl
    · rw [h.nextPool]; unfold saveCell; split <;> rfl
    · rw [h.emitted]; unfold saveCell; split <;> rfl
    · intro j
      rw [h.same j, hs j]
    · intro j hj
      simp only [List.mem_cons, not_or] at hj
      rw [h.other j hj.2]
      unfold saveCell
      split
      · simp [upd_ne _ _ hj.1]
      · rfl
    · intro j hj hr
      by_cases hjl : j ∈ l
      · have hv : ((saveCell w i).cell j).rollback = true := by rw [hs j]; exact hr
        rw [h.saved j hjl hv, hs j]
      · have : j = i := by
          rcases List.mem_cons.1 hj with h | h
          · exact h
          · exact absurd h hjl
        subst this
        rw [h.other j hjl]
        simp [saveCell, hr]
    · intro j hr
      have hv : ((saveCell w i).cell j).rollback = false := by rw [hs j]; exact hr
      rw [h.unsaved j hv]
      unfold saveCell
      split
      · next hi =>
        have : j ≠ i := by rintro rfl; rw [hr] at hi; cases hi
        simp [upd_ne _ _ this]
      · rfl

/-- Effect of the pool save loop. -/
structure SavedPools (l : List Nat) (w w' : World) : Prop where
  cell : w'.cell = w.cell
  nextCell : w'.nextCell = w.nextCell
  nextPool : w'.nextPool = w.nextPool
  emitted : w'.emitted = w.emitted
  nextDict : w.nextDict ≤ w'.nextDict
  dict : ∀ r, r < w.nextDict → w'.dict r = w.dict r
  same : ∀ i, w'.pool i = { w.pool i with oldvalue := (w'.pool i).oldvalue }
  other : ∀ i, i ∉ l → w'.pool i = w.pool i
  saved : ∀ i ∈ l, (w.pool i).rollback = true → (w.pool i).value < w.nextDict →
    ∃ r, (w'.pool i).oldvalue = some r ∧ w.nextDict ≤ r ∧ r < w'.nextDict ∧
      w'.dict r = w.dict (w.pool i).value
  distinct : ∀ i ∈ l, ∀ j ∈ l, (w.pool i).rollback = true → (w.pool j).rollback = true →
    (w'.pool i).oldvalue = (w'.pool j).oldvalue → i = j

theorem savePools_spec (l : List Nat) (w : World) : SavedPools l w (l.foldl savePool w) := by
  induction l generalizing w with
  | nil => exact ⟨rfl, rfl, rfl, rfl, Nat.le_refl _, fun _ _ => rfl, fun _ => rfl, fun _ _ => rfl,
      by simp, by simp⟩
  | cons i l ih =>
    simp only [List.foldl_cons]
    have h := ih (savePool w i)
    have hs : ∀ j, (savePool w i).pool j = { w.pool j with oldvalue := ((savePool w i).pool j).oldvalue } := by
      intro j
      unfold savePool
      split
      · by_cases hj : j = i
        · subst hj; simp
        · simp [upd_ne _ _ hj]
      · rfl
    have hnext : w.nextDict ≤ (savePool w i).nextDict := by
      unfold savePool; split <;> simp
    have hdict : ∀ r, r < w.nextDict → (savePool w i).dict r = w.dict r := by
      intro r hr
      unfold savePool
      split
      · have : r ≠ w.nextDict := by omega
        simp [upd_ne _ _ this]
      · rfl
    have hother : ∀ j, j ≠ i → (savePool w i).pool j = w.pool j := by
      intro j hj
      unfold savePool
      split
      · simp [upd_ne _ _ hj]
      · rfl
    have hsaved_i : (w.pool i).rollback = true →
        (savePool w i).pool i = { w.pool i with oldvalue := some w.nextDict } ∧
        (savePool w i).dict w.nextDict = w.dict (w.pool i).value ∧
        (savePool w i).nextDict = w.nextDict + 1 := by
      intro hr
      simp [savePool, hr]
    have hsaved : ∀ j ∈ i :: l, (w.pool j).rollback = true → (w.pool j).value < w.nextDict →
        ∃ r, ((l.foldl savePool (savePool w i)).pool j).oldvalue = some r ∧ w.nextDict ≤ r ∧
          r < (l.foldl savePool (savePool w i)).nextDict ∧
          (l.foldl savePool (savePool w i)).dict r = w.dict (w.pool j).value := by
      intro j hj hr hlt
      by_cases hjl : j ∈ l
      · have hv : ((savePool w i).pool j).rollback = true := by rw [hs j]; exact hr
        have hval : ((savePool w i).pool j).value = (w.pool j).value := by rw [hs j]
        obtain ⟨r, h1, h2, h3, h4⟩ := h.saved j hjl hv (by rw [hval]; omega)
        refine ⟨r, h1, by omega, h3, ?_⟩
        rw [h4, hval, hdict _ hlt]
      · have : j = i := by
          rcases List.mem_cons.1 hj with h | h
          · exact h
          · exact absurd h hjl
        subst this
        obtain ⟨h1, h2, h3⟩ := hsaved_i hr
        refine ⟨w.nextDict, ?_, Nat.le_refl _, ?_, ?_⟩
        · rw [h.other j hjl, h1]
        · have := h.nextDict; omega
        · rw [h.dict _ (by omega), h2]
    refine ⟨?_, ?_, ?_, ?_, ?_, ?_, ?_, ?_, hsaved, ?_⟩
    · rw [h.cell]; unfold savePool; split <;> rfl
    · rw [h.nextCell]; unfold savePool; split <;> rfl
    · rw [h.nextPool]; unfold savePool; split <;> rfl
    · rw [h.emitted]; unfold savePool; split <;> rfl
    · exact Nat.le_trans hnext h.nextDict
    · intro r hr; rw [h.dict r (by omega), hdict r hr]
    · intro j; rw [h.same j, hs j]
    · intro j hj
      simp only [List.mem_cons, not_or] at hj
      rw [h.other j hj.2, hother j hj.1]
    · -- distinct
      have key : ∀ j ∈ l, j ≠ i → i ∉ l → (w.pool i).rollback = true → (w.pool j).rollback = true →
          ((l.foldl savePool (savePool w i)).pool i).oldvalue
            ≠ ((l.foldl savePool (savePool w i)).pool j).oldvalue := by
        intro j hj hji hil hri hrj heq
        obtain ⟨h1, -, h3⟩ := hsaved_i hri
        rw [h.other i hil, h1] at heq
        -- oldvalue of j is ≥ nextDict after saving i
        have hv : ((savePool w i).pool j).rollback = true := by rw [hs j]; exact hrj
        -- use a version of `saved` without the bound on value: recompute
        have hge : ∀ (l : List Nat) (w : World), ∀ j ∈ l, (w.pool j).rollback = true →
            ∃ r, ((l.foldl savePool w).pool j).oldvalue = some r ∧ w.nextDict ≤ r := by
          intro l
          induction l with
          | nil => intro w j hj; simp at hj
          | cons a l ihl =>
            intro w j hj hr
            have hsa : ((savePool w a).pool j).rollback = true := by
              unfold savePool
              split
              · by_cases hja : j = a
                · subst hja; simpa using hr
                · simpa [upd_ne _ _ hja] using hr
              · exact hr
            have hna : w.nextDict ≤ (savePool w a).nextDict := by
              unfold savePool; split <;> simp
            by_cases hjl : j ∈ l
            · obtain ⟨r, hr1, hr2⟩ := ihl (savePool w a) j hjl hsa
              exact ⟨r, hr1, by omega⟩
            · have hja : j = a := by
                rcases List.mem_cons.1 hj with h | h
                · exact h
                · exact absurd h hjl
              subst hja
              have hoth : ∀ (l : List Nat) (w : World), j ∉ l →
                  (l.foldl savePool w).pool j = w.pool j := by
                intro l
                induction l with
                | nil => intro w _; rfl
                | cons b l ihb =>
                  intro w hb
                  simp only [List.mem_cons, not_or] at hb
                  simp only [List.foldl_cons]
                  rw [ihb _ hb.2]
                  unfold savePool
                  split
                  · simp [upd_ne _ _ hb.1]
                  · rfl
              refine ⟨w.nextDict, ?_, Nat.le_refl _⟩
              simp only [List.foldl_cons]
              rw [hoth l _ hjl]
              simp [savePool, hr]
        obtain ⟨r, hr1, hr2⟩ := hge l (savePool w i) j hj hv
        rw [hr1] at heq
        simp only [Option.some.injEq] at heq
        omega
      intro a ha b hb hra hrb heq
      have hra' : ((savePool w i).pool a).rollback = true := by rw [hs a]; exact hra
      have hrb' : ((savePool w i).pool b).rollback = true := by rw [hs b]; exact hrb
      by_cases hal : a ∈ l
      · by_cases hbl : b ∈ l
        · exact h.distinct a hal b hbl hra' hrb' heq
        · have hbi : b = i := by
            rcases List.mem_cons.1 hb with h | h
            · exact h
            · exact absurd h hbl
          subst hbi
          by_cases hab : a = b
          · exact hab
          · exact absurd heq.symm (key a hal hab hbl hrb hra)
      · have hai : a = i := by
          rcases List.mem_cons.1 ha with h | h
          · exact h
          · exact absurd h hal
        subst hai
        by_cases hab : b = a
        · exact hab.symm
        · have hbl : b ∈ l := by
            rcases List.mem_cons.1 hb with h | h
            · exact absurd h hab
            · exact h
          exact absurd heq (key b hbl hab hal hra hrb)

/-- Effect of the cell restore loop. -/
structure RestoredCells (l : List Nat) (w w' : World) : Prop where
  pool : w'.pool = w.pool
  dict : w'.dict = w.dict
  nextDict : w'.nextDict = w.nextDict
  nextCell : w'.nextCell = w.nextCell
  nextPool : w'.nextPool = w.nextPool
  emitted : w'.emitted = w.emitted
  same : ∀ i, w'.cell i = { w.cell i with value := (w'.cell i).value }
  other : ∀ i, i ∉ l → w'.cell i = w.cell i
  restored : ∀ i ∈ l, (w.cell i).rollback = true → ∀ v, (w.cell i).oldvalue = some v →
    (w'.cell i).value = v
  kept : ∀ i, (w.cell i).rollback = false → w'.cell i = w.cell i

theorem restoreCells_spec (l : List Nat) (w : World) :
    RestoredCells l w (l.foldl restoreCell w) := by
  induction l generalizing w with
  | nil => exact ⟨rfl, rfl, rfl, rfl, rfl, rfl, fun _ => rfl, fun _ _ => rfl, by simp, fun _ _ => rfl⟩
  | cons i l ih =>
    simp only [List.foldl_cons]
    have h := ih (restoreCell w i)
    have hs : ∀ j, (restoreCell w i).cell j = { w.cell j with value := ((restoreCell w i).cell j).value } := by
      intro j
      unfold restoreCell
      split
      · split
        · by_cases hj : j = i
          · subst hj; simp
          · simp [upd_ne _ _ hj]
        · rfl
      · rfl
    refine ⟨?_, ?_, ?_, ?_, ?_, ?_, ?_, ?_, ?_, ?_⟩
    · rw [h.pool]; unfold restoreCell; split <;> (try split) <;> rfl
    · rw [h.dict]; unfold restoreCell; split <;> (try split) <;> rfl
    · rw [h.nextDict]; unfold restoreCell; split <;> (try split) <;> rfl
    · rw [h.nextCell]; unfold restoreCell; split <;> (try split) <;> rfl
    · rw [h.nextPool]; unfold restoreCell; split <;> (try split) <;> rfl
    · rw [h.emitted]; unfold restoreCell; split <;> (try split) <;> rfl
    · intro j; rw [h.same j, hs j]
    · intro j hj
      simp only [List.mem_cons, not_or] at hj
      rw [h.other j hj.2]
      unfold restoreCell
      split
      · split
        · simp [upd_ne _ _ hj.1]
        · rfl
      · rfl
    · intro j hj hr v hv
      by_cases hjl : j ∈ l
      · exact h.restored j hjl (by rw [hs j]; exact hr) v (by rw [hs j]; exact hv)
      · have : j = i := by
          rcases List.mem_cons.1 hj with h | h
          · exact h
          · exact absurd h hjl
        subst this
        rw [h.other j hjl]
        simp [restoreCell, hr, hv]
    · intro j hr
      rw [h.kept j (by rw [hs j]; exact hr)]
      unfold restoreCell
      split
      · next hi =>
        have : j ≠ i := by rintro rfl; rw [hr] at hi; cases hi
        split
        · simp [upd_ne _ _ this]
        · rfl
      · rfl

/-- Effect of the pool restore loop. -/
structure RestoredPools (l : List Nat) (w w' : World) : Prop where
  cell : w'.cell = w.cell
  dict : w'.dict = w.dict
  nextDict : w'.nextDict = w.nextDict
  nextCell : w'.nextCell = w.nextCell
  nextPool : w'.nextPool = w.nextPool
  emitted : w'.emitted = w.emitted
  same : ∀ i, w'.pool i = { w.pool i with value := (w'.pool i).value }
  other : ∀ i, i ∉ l → w'.pool i = w.pool i
  restored : ∀ i ∈ l, (w.pool i).rollback = true → ∀ r, (w.pool i).oldvalue = some r →
    (w'.pool i).value = r
  kept : ∀ i, (w.pool i).rollback = false → w'.pool i = w.pool i

theorem restorePools_spec (l : List Nat) (w : World) :
    RestoredPools l w (l.foldl restorePool w) := by
  induction l generalizing w with
  | nil => exact ⟨rfl, rfl, rfl, rfl, rfl, rfl, fun _ => rfl, fun _ _ => rfl, by simp, fun _ _ => rfl⟩
  | cons i l ih =>
    simp only [List.foldl_cons]
    have h := ih (restorePool w i)
    have hs : ∀ j, (restorePool w i).pool j = { w.pool j with value := ((restorePool w i).pool j).value } := by
      intro j
      unfold restorePool
      split
      · split
        · by_cases hj : j = i
          · subst hj; simp
          · simp [upd_ne _ _ hj]
        · rfl
      · rfl
    refine ⟨?_, ?_, ?_, ?_, ?_, ?_, ?_, ?_, ?_, ?_⟩
    · rw [h.cell]; unfold restorePool; split <;> (try split) <;> rfl
    · rw [h.dict]; unfold restorePool; split <;> (try split) <;> rfl
    · rw [h.nextDict]; unfold restorePool; split <;> (try split) <;> rfl
    · rw [h.nextCell]; unfold restorePool; split <;> (try split) <;> rfl
    · rw [h.nextPool]; unfold restorePool; split <;> (try split) <;> rfl
    · rw [h.emitted]; unfold restorePool; split <;> (try split) <;> rfl
    · intro j; rw [h.same j, hs j]
    · intro j hj
      simp only [List.mem_cons, not_or] at hj
      rw [h.other j hj.2]
      unfold restorePool
      split
      · split
        · simp [upd_ne _ _ hj.1]
        · rfl
      · rfl
    · intro j hj hr v hv
      by_cases hjl : j ∈ l
      · exact h.restored j hjl (by rw [hs j]; exact hr) v (by rw [hs j]; exact hv)
      · have : j = i := by
          rcases List.mem_cons.1 hj with h | h
          · exact h
          · exact absurd h hjl
        subst this
        rw [h.other j hjl]
        simp [restorePool, hr, hv]
    · intro j hr
      rw [h.kept j (by rw [hs j]; exact hr)]
      unfold restorePool
      split
      · next hi =>
        have : j ≠ i := by rintro rfl; rw [hr] at hi; cases hi
        split
        · simp [upd_ne _ _ this]
        · rfl
      · rfl

end Verif.Engine
