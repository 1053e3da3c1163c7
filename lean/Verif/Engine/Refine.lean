import Verif.Engine.Spec
import Verif.Engine.Proofs
/-! # The heap model refines the specification -/

namespace Verif.Engine
open Verif.Avro Verif.Path

/-! ## `updateM` commutes with a change of state -/

section
variable {σ τ : Type _} (φ : σ → τ) (I : σ → Prop) {f : Val → SM σ Val} {g : Val → SM τ Val}
  (hfg : ∀ v s, I s → g v (φ s) = ((f v s).1, φ (f v s).2))
  (hI : ∀ v s, I s → I (f v s).2)
include hfg hI

theorem updDict_map (k : String) (d : List (String × Val)) (s : σ) (hs : I s) :
    updDict g k d (φ s) = ((updDict f k d s).1, φ (updDict f k d s).2) ∧ I (updDict f k d s).2 := by
  induction d generalizing s with
  | nil => exact ⟨rfl, hs⟩
  | cons kv d ih =>
    obtain ⟨k', v⟩ := kv
    simp only [updDict]
    split
    · have h1 := hfg v s hs
      have h2 := hI v s hs
      cases hf : f v s with
      | mk r s1 =>
        rw [hf] at h1 h2
        rw [h1]
        cases r with
        | error e => exact ⟨rfl, h2⟩
        | ok v' =>
          obtain ⟨h3, h4⟩ := ih s1 h2
          cases hd : updDict f k d s1 with
          | mk r s2 =>
            rw [hd] at h3 h4
            simp only [hd, h3]
            cases r <;> exact ⟨rfl, h4⟩
    · obtain ⟨h3, h4⟩ := ih s hs
      cases hd : updDict f k d s with
      | mk r s2 =>
        rw [hd] at h3 h4
        simp only [h3]
        cases r <;> exact ⟨rfl, h4⟩

theorem updList_map (i j : Int) (xs : List Val) (s : σ) (hs : I s) :
    updList g i j xs (φ s) = ((updList f i j xs s).1, φ (updList f i j xs s).2) ∧
      I (updList f i j xs s).2 := by
  induction xs generalizing s j with
  | nil => exact ⟨rfl, hs⟩
  | cons x xs ih =>
    simp only [updList]
    split
    · have h1 := hfg x s hs
      have h2 := hI x s hs
      cases hf : f x s with
      | mk r s1 =>
        rw [hf] at h1 h2
        rw [h1]
        cases r with
        | error e => exact ⟨rfl, h2⟩
        | ok v' =>
          obtain ⟨h3, h4⟩ := ih (j + 1) s1 h2
          cases hd : updList f i (j + 1) xs s1 with
          | mk r s2 =>
            rw [hd] at h3 h4
            simp only [hd, h3]
            cases r <;> exact ⟨rfl, h4⟩
    · obtain ⟨h3, h4⟩ := ih (j + 1) s hs
      cases hd : updList f i (j + 1) xs s with
      | mk r s2 =>
        rw [hd] at h3 h4
        simp only [h3]
        cases r <;> exact ⟨rfl, h4⟩

end

theorem updateM_map {σ τ : Type _} (φ : σ → τ) (I : σ → Prop) {f : Val → SM σ Val}
    {g : Val → SM τ Val} (hfg : ∀ v s, I s → g v (φ s) = ((f v s).1, φ (f v s).2))
    (hI : ∀ v s, I s → I (f v s).2) (a m : Int) (p : Path) (v : Val) (s : σ) (hs : I s) :
    updateM a m g p v (φ s) = ((updateM a m f p v s).1, φ (updateM a m f p v s).2) ∧
      I (updateM a m f p v s).2 := by
  induction p generalizing v s with
  | nil => exact ⟨hfg v s hs, hI v s hs⟩
  | cons e p ih =>
    simp only [updateM]
    split
    · next d =>
      split
      · next k =>
        split
        · exact ⟨rfl, hs⟩
        · have := updDict_map φ I (f := updateM a m f p) (g := updateM a m g p)
            (fun v s hs => (ih v s hs).1) (fun v s hs => (ih v s hs).2) k d s hs
          cases hd : updDict (updateM a m f p) k d s with
          | mk r s2 =>
            rw [hd] at this
            simp only [this.1]
            cases r <;> exact ⟨rfl, this.2⟩
      · split <;> exact ⟨rfl, hs⟩
    · next xs =>
      split
      · next i =>
        split
        · exact ⟨rfl, hs⟩
        · have := updList_map φ I (f := updateM a m f p) (g := updateM a m g p)
            (fun v s hs => (ih v s hs).1) (fun v s hs => (ih v s hs).2) i 0 xs s hs
          cases hd : updList (updateM a m f p) i 0 xs s with
          | mk r s2 =>
            rw [hd] at this
            simp only [this.1]
            cases r <;> exact ⟨rfl, this.2⟩
      · exact ⟨rfl, hs⟩
    · exact ⟨rfl, hs⟩

/-! ## The view of an instance -/

/-- What an instance sees of the heap. -/
def view (cs ps : PyDict String Nat) (o : Nat) (w : World) : Store where
  cells n := (PyDict.get? cs n).map fun i => (w.cell i).value
  pools n := (PyDict.get? ps n).map fun i => w.dict (w.pool i).value
  emitted := w.emitted o

/-- Distinct names are distinct objects, distinct pools have distinct dicts. -/
structure Sep (cs ps : PyDict String Nat) (w : World) : Prop where
  cinj : ∀ n m i, PyDict.get? cs n = some i → PyDict.get? cs m = some i → n = m
  pinj : ∀ n m i j, PyDict.get? ps n = some i → PyDict.get? ps m = some j →
    (w.pool i).value = (w.pool j).value → n = m

theorem Sep.of_pool {cs ps : PyDict String Nat} {w w' : World} (h : Sep cs ps w)
    (hp : w'.pool = w.pool) : Sep cs ps w' :=
  ⟨h.cinj, by rw [hp]; exact h.pinj⟩

theorem view_setCell {cs ps : PyDict String Nat} {o : Nat} {w : World} (h : Sep cs ps w)
    {n : String} {i : Nat} (hn : PyDict.get? cs n = some i) (v : Val) :
    view cs ps o (w.setCell i v) = (view cs ps o w).setCell n v := by
  simp only [view, World.setCell, Store.setCell, Store.mk.injEq, and_true]
  funext m
  by_cases hm : m = n
  · subst hm; simp [hn]
  · simp only [hm, if_false]
    cases hg : PyDict.get? cs m with
    | none => rfl
    | some j =>
      have : j ≠ i := by rintro rfl; exact hm (h.cinj _ _ _ hg hn)
      simp [upd_ne _ _ this]

theorem view_setDict {cs ps : PyDict String Nat} {o : Nat} {w : World} (h : Sep cs ps w)
    {n : String} {i : Nat} (hn : PyDict.get? ps n = some i) (d : PyDict String Val) :
    view cs ps o (w.setDict (w.pool i).value d) = (view cs ps o w).setPool n d := by
  simp only [view, World.setDict, Store.setPool, Store.mk.injEq, and_true, true_and]
  funext m
  by_cases hm : m = n
  · subst hm; simp [hn]
  · simp only [hm, if_false]
    cases hg : PyDict.get? ps m with
    | none => rfl
    | some j =>
      have : (w.pool j).value ≠ (w.pool i).value := fun he => hm (h.pinj _ _ _ _ hg hn he)
      simp [upd_ne _ _ this]

theorem run_sep {cs ps : PyDict String Nat} {o : Nat} (p : Prog) {w : World} (h : Sep cs ps w) :
    Sep cs ps (run cs ps o p w).2 :=
  h.of_pool (run_frame cs ps o p w).pool

/-- Running a body on the heap has exactly the effect of the specification on names. -/
theorem run_refines (cs ps : PyDict String Nat) (o : Nat) (p : Prog) (w : World)
    (h : Sep cs ps w) :
    srun p (view cs ps o w) = ((run cs ps o p w).1, view cs ps o (run cs ps o p w).2) := by
  induction p generalizing w with
  | ret v => rfl
  | raise e => rfl
  | cellGet name path k ih =>
    simp only [run, srun]
    cases hg : PyDict.get? cs name with
    | none => simp [view, hg]
    | some i =>
      have : (view cs ps o w).cells name = some (w.cell i).value := by simp [view, hg]
      simp only [this]
      cases get 2004 2005 (w.cell i).value path with
      | ok v => exact ih v w h
      | error e => rfl
  | cellTo name path repl k ihr ihk =>
    simp only [run, srun]
    cases hg : PyDict.get? cs name with
    | none => simp [view, hg]
    | some i =>
      have : (view cs ps o w).cells name = some (w.cell i).value := by simp [view, hg]
      simp only [this, cellUpdate]
      have hu := updateM_map (view cs ps o) (Sep cs ps) (f := fun v => run cs ps o (repl v))
        (g := fun v => srun (repl v)) (fun v s hs => ihr v s hs) (fun v s hs => run_sep _ hs)
        2006 2007 path (w.cell i).value w h
      cases he : updateM 2006 2007 (fun v => run cs ps o (repl v)) path (w.cell i).value w with
      | mk r w1 =>
        rw [he] at hu
        simp only [hu.1]
        cases r with
        | error e => rfl
        | ok v =>
          simp only
          rw [← view_setCell hu.2 hg]
          exact ihk v _ (hu.2.of_pool rfl)
  | poolGet name path k ih =>
    simp only [run, srun]
    cases hg : PyDict.get? ps name with
    | none => simp [view, hg]
    | some i =>
      have : (view cs ps o w).pools name = some (w.dict (w.pool i).value) := by simp [view, hg]
      simp only [this]
      cases get 2008 2009 (.dict (w.dict (w.pool i).value)) path with
      | ok v => exact ih v w h
      | error e => rfl
  | poolTo name hd tl repl init k ihr ihk =>
    simp only [run, srun]
    cases hg : PyDict.get? ps name with
    | none => simp [view, hg]
    | some i =>
      have hv : (view cs ps o w).pools name = some (w.dict (w.pool i).value) := by simp [view, hg]
      simp only [hv, poolUpdate]
      -- after the optional insertion of `init`
      have hw1 : ∃ w1, (if PyDict.has (w.dict (w.pool i).value) hd = true then w
          else w.setDict (w.pool i).value (PyDict.set (w.dict (w.pool i).value) hd init)) = w1 ∧
          (if PyDict.has (w.dict (w.pool i).value) hd = true then view cs ps o w
          else (view cs ps o w).setPool name (PyDict.set (w.dict (w.pool i).value) hd init))
            = view cs ps o w1 ∧ w1.pool = w.pool ∧
          PyDict.get? (w1.dict (w.pool i).value) hd
            = some ((PyDict.get? (w.dict (w.pool i).value) hd).getD init) := by
        refine ⟨_, rfl, ?_⟩
        split
        · next hh =>
          refine ⟨rfl, rfl, ?_⟩
          unfold PyDict.has at hh
          obtain ⟨x, hx⟩ := Option.isSome_iff_exists.1 hh
          simp [hx]
        · next hh =>
          refine ⟨(view_setDict h hg _).symm, rfl, ?_⟩
          have hn : PyDict.get? (w.dict (w.pool i).value) hd = none := by
            unfold PyDict.has at hh
            simpa using hh
          simp [World.setDict, PyDict.get?_set_self, hn]
      obtain ⟨w1, e1, e2, e3, e4⟩ := hw1
      simp only [e1, e2, e4]
      have h1 : Sep cs ps w1 := h.of_pool e3
      have hu := updateM_map (view cs ps o) (Sep cs ps) (f := fun v => run cs ps o (repl v))
        (g := fun v => srun (repl v)) (fun v s hs => ihr v s hs) (fun v s hs => run_sep _ hs)
        2010 2011 tl ((PyDict.get? (w.dict (w.pool i).value) hd).getD init) w1 h1
      cases he : updateM 2010 2011 (fun v => run cs ps o (repl v)) tl
          ((PyDict.get? (w.dict (w.pool i).value) hd).getD init) w1 with
      | mk r w2 =>
        rw [he] at hu
        simp only [hu.1]
        cases r with
        | error e => rfl
        | ok v =>
          simp only
          have hv2 : (view cs ps o w2).pools name = some (w2.dict (w2.pool i).value) := by
            simp [view, hg]
          rw [hv2]
          simp only [Option.getD_some]
          rw [← view_setDict hu.2 hg]
          exact ihk v _ (hu.2.of_pool rfl)
  | poolDel name item k ih =>
    simp only [run, srun]
    cases hg : PyDict.get? ps name with
    | none => simp [view, hg]
    | some i =>
      have hv : (view cs ps o w).pools name = some (w.dict (w.pool i).value) := by simp [view, hg]
      simp only [hv]
      rw [← view_setDict h hg]
      exact ih _ (h.of_pool rfl)
  | tryCatch body c k ihb ihk =>
    simp only [run, srun]
    have hb := ihb w h
    have hs := run_sep (o := o) body h
    cases hr : run cs ps o body w with
    | mk r w1 =>
      rw [hr] at hb hs
      simp only [hb]
      cases r with
      | ok v => exact ihk v w1 hs
      | error e =>
        simp only
        split
        · exact ihk _ w1 hs
        · rfl
  | emit v k ih =>
    simp only [run, srun]
    have : ({ view cs ps o w with emitted := (view cs ps o w).emitted ++ [v] } : Store)
        = view cs ps o { w with emitted := upd w.emitted o (w.emitted o ++ [v]) } := by
      simp [view]
    rw [this]
    exact ih _ (h.of_pool rfl)

/-! ## Calls -/

/-- Dicts of live pools are allocated and distinct. -/
structure Live (L : Nat → Prop) (w : World) : Prop where
  lt : ∀ i, L i → (w.pool i).value < w.nextDict
  inj : ∀ i j, L i → L j → (w.pool i).value = (w.pool j).value → i = j

/-- What an instance knows about its objects. -/
structure Own (L : Nat → Prop) (cs ps : PyDict String Nat) (rbc rbp : String → Bool) (w : World) :
    Prop where
  cwf : PyDict.WF cs
  pwf : PyDict.WF ps
  cinj : ∀ n m i, PyDict.get? cs n = some i → PyDict.get? cs m = some i → n = m
  pinj : ∀ n m i, PyDict.get? ps n = some i → PyDict.get? ps m = some i → n = m
  live : ∀ n i, PyDict.get? ps n = some i → L i
  crb : ∀ n i, PyDict.get? cs n = some i → (w.cell i).rollback = rbc n
  prb : ∀ n i, PyDict.get? ps n = some i → (w.pool i).rollback = rbp n

theorem Own.sep {L : Nat → Prop} {cs ps rbc rbp w} (h : Own L cs ps rbc rbp w) (hl : Live L w) :
    Sep cs ps w :=
  ⟨h.cinj, fun n m i j hi hj he => by
    have := hl.inj i j (h.live n i hi) (h.live m j hj) he
    subst this
    exact h.pinj n m i hi hj⟩

theorem ids_get? {m : PyDict String Nat} (hm : PyDict.WF m) {i : Nat} (h : i ∈ ids m) :
    ∃ n, PyDict.get? m n = some i := by
  obtain ⟨⟨n, j⟩, hp, rfl⟩ := List.mem_map.1 h
  exact ⟨n, PyDict.get?_of_mem hm hp⟩

/-- What a call on one instance leaves alone. -/
structure Untouched (L : Nat → Prop) (cs ps : PyDict String Nat) (o : Nat) (w w' : World) :
    Prop where
  cell : ∀ i, i ∉ ids cs → w'.cell i = w.cell i
  pool : ∀ i, i ∉ ids ps → w'.pool i = w.pool i
  dict : ∀ i, L i → i ∉ ids ps → w'.dict (w.pool i).value = w.dict (w.pool i).value
  flagsC : ∀ i, (w'.cell i).rollback = (w.cell i).rollback ∧ (w'.cell i).shared = (w.cell i).shared
  flagsP : ∀ i, (w'.pool i).rollback = (w.pool i).rollback ∧ (w'.pool i).shared = (w.pool i).shared
  nextCell : w'.nextCell = w.nextCell
  nextPool : w'.nextPool = w.nextPool
  emitted : ∀ o', o' ≠ o → w'.emitted o' = w.emitted o'

theorem Own.mono {L : Nat → Prop} {cs ps rbc rbp w w'} {cs' ps' : PyDict String Nat} {o : Nat}
    (h : Own L cs ps rbc rbp w) (hu : Untouched L cs' ps' o w w') : Own L cs ps rbc rbp w' where
  cwf := h.cwf
  pwf := h.pwf
  cinj := h.cinj
  pinj := h.pinj
  live := h.live
  crb n i hi := by rw [(hu.flagsC i).1]; exact h.crb n i hi
  prb n i hi := by rw [(hu.flagsP i).1]; exact h.prb n i hi

/-- Running a body without backups (`begin`, `end`). -/
theorem run_untouched {L : Nat → Prop} {cs ps rbc rbp} {o : Nat} (p : Prog) {w : World}
    (h : Own L cs ps rbc rbp w) (hl : Live L w) :
    Untouched L cs ps o w (run cs ps o p w).2 ∧ Live L (run cs ps o p w).2 := by
  have f := run_frame cs ps o p w
  refine ⟨⟨f.cellOther, fun i _ => by rw [f.pool], ?_, ?_, ?_, f.nextCell, f.nextPool,
    f.emittedOther⟩, ⟨?_, ?_⟩⟩
  · intro i hi hn
    apply f.dictOther
    intro j hj he
    obtain ⟨n, hn'⟩ := ids_get? h.pwf hj
    have := hl.inj j i (h.live n j hn') hi he
    exact hn (this ▸ hj)
  · intro i; rw [f.cellRest i]; exact ⟨rfl, rfl⟩
  · intro i; rw [f.pool]; exact ⟨rfl, rfl⟩
  · intro i hi; rw [f.pool, f.nextDict]; exact hl.lt i hi
  · intro i j hi hj; rw [f.pool]; exact hl.inj i j hi hj

/-- Running a body after the backups were taken, and restoring them on failure. -/
theorem guarded_spec {L : Nat → Prop} {cs ps rbc rbp} {o : Nat} (p : Prog) {w : World}
    (h : Own L cs ps rbc rbp w) (hl : Live L w) {r : Res Val} {w1 : World}
    (hr : run cs ps o p (saveAll cs ps w) = (r, w1)) :
    (∃ st, srun p (view cs ps o w) = (r, st) ∧
      (∀ v, r = .ok v → view cs ps o w1 = st ∧ Untouched L cs ps o w w1 ∧ Live L w1) ∧
      (∀ err, r = .error err →
        view cs ps o (restoreAll cs ps w1) = rolledBack rbc rbp (view cs ps o w) st ∧
        Untouched L cs ps o w (restoreAll cs ps w1) ∧ Live L (restoreAll cs ps w1))) := by
  -- the saved heap
  have hsc := saveCells_spec (ids cs) w
  have hsp := savePools_spec (ids ps) ((ids cs).foldl saveCell w)
  have hsave : saveAll cs ps w = (ids ps).foldl savePool ((ids cs).foldl saveCell w) := rfl
  rw [hsave] at hr
  generalize hwa : (ids cs).foldl saveCell w = wa at hsc hsp hr
  generalize hws : (ids ps).foldl savePool wa = ws at hsp hr
  have hval : ∀ i, (ws.pool i).value = (w.pool i).value := by
    intro i; rw [hsp.same i, hsc.pool]
  have hprb : ∀ i, (ws.pool i).rollback = (w.pool i).rollback := by
    intro i; rw [hsp.same i, hsc.pool]
  have hcval : ∀ i, (ws.cell i).value = (w.cell i).value := by
    intro i; rw [hsp.cell, hsc.same i]
  have hcrb : ∀ i, (ws.cell i).rollback = (w.cell i).rollback := by
    intro i; rw [hsp.cell, hsc.same i]
  have hnd : w.nextDict ≤ ws.nextDict := by rw [← hsc.nextDict]; exact hsp.nextDict
  have hdict : ∀ r, r < w.nextDict → ws.dict r = w.dict r := by
    intro r hr; rw [hsp.dict r (by rw [hsc.nextDict]; exact hr), hsc.dict]
  have hview : view cs ps o ws = view cs ps o w := by
    simp only [view, Store.mk.injEq]
    refine ⟨?_, ?_, ?_⟩
    · funext n
      cases PyDict.get? cs n <;> simp [hcval]
    · funext n
      cases hg : PyDict.get? ps n with
      | none => rfl
      | some i => simp [hval, hdict _ (hl.lt i (h.live n i hg))]
    · rw [hsp.emitted, hsc.emitted]
  have hls : Live L ws := ⟨fun i hi => by rw [hval]; exact Nat.lt_of_lt_of_le (hl.lt i hi) hnd,
    fun i j hi hj he => hl.inj i j hi hj (by rw [hval, hval] at he; exact he)⟩
  have hos : Own L cs ps rbc rbp ws := ⟨h.cwf, h.pwf, h.cinj, h.pinj, h.live,
    fun n i hi => by rw [hcrb]; exact h.crb n i hi, fun n i hi => by rw [hprb]; exact h.prb n i hi⟩
  have href := run_refines cs ps o p ws (hos.sep hls)
  have hfr := run_frame cs ps o p ws
  obtain ⟨hut, hlive⟩ := run_untouched (o := o) p hos hls
  rw [hr] at href hfr hut hlive
  simp only at href hfr hut hlive
  -- composition of untouched
  have hutw : Untouched L cs ps o w w1 := by
    refine ⟨?_, ?_, ?_, ?_, ?_, ?_, ?_, ?_⟩
    · intro i hi; rw [hut.cell i hi, hsp.cell, hsc.other i hi]
    · intro i hi; rw [hut.pool i hi, hsp.other i hi, hsc.pool]
    · intro i hi hn
      rw [← hval i, hut.dict i hi hn, hval, hdict _ (hl.lt i hi)]
    · intro i
      refine ⟨by rw [(hut.flagsC i).1, hcrb], ?_⟩
      rw [(hut.flagsC i).2, hsp.cell, hsc.same i]
    · intro i
      refine ⟨by rw [(hut.flagsP i).1, hprb], ?_⟩
      rw [(hut.flagsP i).2, hsp.same i, hsc.pool]
    · rw [hut.nextCell, hsp.nextCell, hsc.nextCell]
    · rw [hut.nextPool, hsp.nextPool, hsc.nextPool]
    · intro o' ho; rw [hut.emitted o' ho, hsp.emitted, hsc.emitted]
  refine ⟨view cs ps o w1, by rw [← hview]; exact href, fun v _ => ⟨rfl, hutw, hlive⟩, fun err _ => ?_⟩
  -- restoring
  have hrc := restoreCells_spec (ids cs) w1
  have hrp := restorePools_spec (ids ps) ((ids cs).foldl restoreCell w1)
  have hrest : restoreAll cs ps w1 = (ids ps).foldl restorePool ((ids cs).foldl restoreCell w1) := rfl
  rw [hrest]
  generalize hwb : (ids cs).foldl restoreCell w1 = wb at hrc hrp
  generalize hwr : (ids ps).foldl restorePool wb = wr at hrp
  -- the pool objects in wb are those of ws
  have hpb : wb.pool = ws.pool := by rw [hrc.pool, hfr.pool]
  -- references restored
  have hpres : ∀ i ∈ ids ps, (w.pool i).rollback = true →
      ∃ r, (ws.pool i).oldvalue = some r ∧ (wr.pool i).value = r ∧ w.nextDict ≤ r ∧
        r < ws.nextDict ∧ ws.dict r = w.dict (w.pool i).value := by
    intro i hi hrb
    obtain ⟨n, hn⟩ := ids_get? h.pwf hi
    obtain ⟨r, h1, h2, h3, h4⟩ := hsp.saved i hi (by rw [hsc.pool]; exact hrb)
      (by rw [hsc.pool, hsc.nextDict]; exact hl.lt i (h.live n i hn))
    refine ⟨r, h1, ?_, by rw [← hsc.nextDict]; exact h2, h3, ?_⟩
    · exact hrp.restored i hi (by rw [hpb, hprb]; exact hrb) r (by rw [hpb]; exact h1)
    · rw [h4, hsc.pool, hsc.dict]
  have hpkeep : ∀ i, (w.pool i).rollback = false → (wr.pool i) = ws.pool i := by
    intro i hrb
    rw [hrp.kept i (by rw [hpb, hprb]; exact hrb), hpb]
  -- backup dicts are not touched by the body
  have hbackup : ∀ r, w.nextDict ≤ r → w1.dict r = ws.dict r := by
    intro r hr'
    apply hfr.dictOther
    intro i hi he
    obtain ⟨n, hn⟩ := ids_get? h.pwf hi
    have := hl.lt i (h.live n i hn)
    rw [hval] at he
    omega
  have hwrdict : wr.dict = w1.dict := by rw [hrp.dict, hrc.dict]
  have hndr : wr.nextDict = ws.nextDict := by
    rw [hrp.nextDict, hrc.nextDict, hfr.nextDict]
  refine ⟨?_, ?_, ?_⟩
  · simp only [view, rolledBack, Store.mk.injEq]
    refine ⟨?_, ?_, ?_⟩
    · funext n
      cases hg : PyDict.get? cs n with
      | none => simp
      | some i =>
        have hi := mem_ids_of_get? hg
        have hb := h.crb n i hg
        simp only [Option.map_some, hrp.cell]
        have hrbw1 : (w1.cell i).rollback = rbc n := by rw [hfr.cellRest i, hcrb]; exact hb
        cases hrb : rbc n with
        | true =>
          have hold : (w1.cell i).oldvalue = some (w.cell i).value := by
            rw [hfr.cellRest i, hsp.cell]
            exact hsc.saved i hi (by rw [hb]; exact hrb)
          simp [hrc.restored i hi (by rw [hrbw1, hrb]) _ hold]
        | false =>
          simp [hrc.kept i (by rw [hrbw1, hrb])]
    · funext n
      cases hg : PyDict.get? ps n with
      | none => simp
      | some i =>
        have hi := mem_ids_of_get? hg
        have hb := h.prb n i hg
        simp only [Option.map_some, hwrdict]
        cases hrb : rbp n with
        | true =>
          obtain ⟨r, -, h2, h3, -, h5⟩ := hpres i hi (by rw [hb]; exact hrb)
          simp [h2, hbackup r h3, h5]
        | false =>
          rw [hpkeep i (by rw [hb]; exact hrb), hfr.pool]
          simp
    · rw [hrp.emitted, hrc.emitted]
  · refine ⟨?_, ?_, ?_, ?_, ?_, ?_, ?_, ?_⟩
    · intro i hi; rw [hrp.cell, hrc.other i hi, hutw.cell i hi]
    · intro i hi; rw [hrp.other i hi, hrc.pool, hutw.pool i hi]
    · intro i hi hn; rw [hwrdict]; exact hutw.dict i hi hn
    · intro i
      rw [hrp.cell, hrc.same i]
      exact hutw.flagsC i
    · intro i
      rw [hrp.same i, hrc.pool]
      exact hutw.flagsP i
    · rw [hrp.nextCell, hrc.nextCell, hutw.nextCell]
    · rw [hrp.nextPool, hrc.nextPool, hutw.nextPool]
    · intro o' ho; rw [hrp.emitted, hrc.emitted, hutw.emitted o' ho]
  · -- Live
    have cases' : ∀ i, L i → ((wr.pool i).value = (w.pool i).value) ∨
        (i ∈ ids ps ∧ (w.pool i).rollback = true) := by
      intro i hi
      by_cases hin : i ∈ ids ps
      · cases hrb : (w.pool i).rollback with
        | true => exact Or.inr ⟨hin, rfl⟩
        | false => left; rw [hpkeep i hrb, hval]
      · left; rw [hrp.other i hin, hpb, hval]
    refine ⟨?_, ?_⟩
    · intro i hi
      rw [hndr]
      rcases cases' i hi with he | ⟨hin, hrb⟩
      · rw [he]; exact Nat.lt_of_lt_of_le (hl.lt i hi) hnd
      · obtain ⟨r, -, h2, -, h4, -⟩ := hpres i hin hrb
        rw [h2]; exact h4
    · intro i j hi hj he
      rcases cases' i hi with he1 | ⟨hin1, hrb1⟩ <;> rcases cases' j hj with he2 | ⟨hin2, hrb2⟩
      · exact hl.inj i j hi hj (by rw [← he1, ← he2]; exact he)
      · obtain ⟨r, -, h2, h3, -, -⟩ := hpres j hin2 hrb2
        have := hl.lt i hi
        rw [he1, h2] at he
        omega
      · obtain ⟨r, -, h2, h3, -, -⟩ := hpres i hin1 hrb1
        have := hl.lt j hj
        rw [he2, h2] at he
        omega
      · obtain ⟨r1, g1, h2, -, -, -⟩ := hpres i hin1 hrb1
        obtain ⟨r2, g2, h2', -, -, -⟩ := hpres j hin2 hrb2
        apply hsp.distinct i hin1 j hin2 (by rw [hsc.pool]; exact hrb1) (by rw [hsc.pool]; exact hrb2)
        rw [g1, g2, ← h2, ← h2', he]

end Verif.Engine
