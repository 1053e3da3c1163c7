import Verif.Engine.Witness
import Verif.Avro.JsonWit
/-!
# Snapshots (C17)

`PFAEngine.snapshot` (genpy.py 1632-1658) writes the contents of cells and pools as JSON text into
a new configuration; `fromAst` decodes them again (1502-1531).
-/

namespace Verif.Engine
open Verif.Avro Verif.Path

/-! ## Model -/

/-- `json.loads(json.dumps(v))`: bytes objects raise TypeError.  Simplified: the JSON text itself is
not modelled, the two functions of the standard library are taken as inverse on all other data. -/
def viaJson (v : Val) : Res Val := if hasBytes v then .error (.py "TypeError") else .ok v

/-- The types of the declared cells and pools, `self.config.cells[k].avroPlaceholder`. -/
structure Decls where
  cells : PyDict String AType
  pools : PyDict String AType

/-- `AstCell(type, json.dumps(value), shared, rollback, source)` for one cell (genpy.py 1638; pfaast.py
1145: shared and rollback exclude each other). -/
def snapCell (D : Decls) (w : World) (kv : String × Nat) : Res (Conf (AType × Val)) :=
  match PyDict.get? D.cells kv.1 with
  | none => .error (.py "KeyError")
  | some t => match viaJson (w.cell kv.2).value with
    | .error e => .error e
    | .ok v => if (w.cell kv.2).shared && (w.cell kv.2).rollback then .error (.py "PFASyntaxException")
      else .ok ⟨kv.1, (t, v), (w.cell kv.2).shared, (w.cell kv.2).rollback⟩

/-- The same for one pool (genpy.py 1639). -/
def snapPool (D : Decls) (w : World) (kv : String × Nat) : Res (Conf (AType × PyDict String Val)) :=
  match PyDict.get? D.pools kv.1 with
  | none => .error (.py "KeyError")
  | some t => match mapD viaJson (w.dict (w.pool kv.2).value) with
    | .error e => .error e
    | .ok d => if (w.pool kv.2).shared && (w.pool kv.2).rollback then .error (.py "PFASyntaxException")
      else .ok ⟨kv.1, (t, d), (w.pool kv.2).shared, (w.pool kv.2).rollback⟩

/-- A configuration before its initial data are decoded. -/
structure Snap where
  cells : List (Conf (AType × Val))
  pools : List (Conf (AType × PyDict String Val))
  zero : Val

/-- `snapshot` (genpy.py 1632-1658): everything but cells and pools is copied from the configuration;
`zero` is its already decoded initial tally. -/
def snapshot (D : Decls) (zero : Val) (s : Inst) (w : World) : Res Snap :=
  match mapR (snapCell D w) s.cells with
  | .error e => .error e
  | .ok cs => match mapR (snapPool D w) s.pools with
    | .error e => .error e
    | .ok ps => .ok ⟨cs, ps, zero⟩

/-- `jsonDecoder(cellConfig.avroType, cellConfig.initJsonNode)` (genpy.py 1504, 1519). -/
def readCell (pf : List Char → Option Flt) (env : Env) (n : Nat) (k : Conf (AType × Val)) : Res (Conf Val) :=
  match dec pf env n k.init.1 k.init.2 with
  | .error e => .error e
  | .ok v => .ok ⟨k.name, v, k.shared, k.rollback⟩

/-- `jsonDecoder(AvroMap(poolConfig.avroType), poolConfig.initJsonNode)` (genpy.py 1509, 1524). -/
def readPool (pf : List Char → Option Flt) (env : Env) (n : Nat) (k : Conf (AType × PyDict String Val)) :
    Res (Conf (PyDict String Val)) :=
  match dec pf env n (.map k.init.1) (.dict k.init.2) with
  | .error e => .error e
  | .ok (.dict d) => .ok ⟨k.name, d, k.shared, k.rollback⟩
  | .ok _ => .error (.py "TypeError")

/-- The decoding part of `fromAst` with a fresh shared state, where every declaration is decoded. -/
def readSnap (pf : List Char → Option Flt) (env : Env) (n : Nat) (c : Snap) : Res Config :=
  match mapR (readCell pf env n) c.cells with
  | .error e => .error e
  | .ok cs => match mapR (readPool pf env n) c.pools with
    | .error e => .error e
    | .ok ps => .ok ⟨cs, ps, c.zero⟩

/-! ## A new engine holds what is declared, shared or not -/

/-- Every declared cell and pool of a single new instance with a fresh shared state holds its
initial data, and nothing else is bound. -/
theorem build_contents (c : Config) (hc : c.Valid) (w : World) (hw : AllLive w) :
    let s := build c ⟨[], []⟩ 1 w
    (∀ k ∈ c.cells, cellContents (s.inst 0) s.world k.name = some k.init) ∧
    (∀ k ∈ c.pools, poolContents (s.inst 0) s.world k.name = some k.init) ∧
    (∀ n, (∀ k ∈ c.cells, k.name ≠ n) → cellContents (s.inst 0) s.world n = none) ∧
    (∀ n, (∀ k ∈ c.pools, k.name ≠ n) → poolContents (s.inst 0) s.world n = none) := by
  have h0 := Shared.ok_empty w hw
  obtain ⟨a1, a2, a3, a4, a5, a6, a7, a8, a9⟩ := cellLoop_spec false c.cells hc.cnodup [] w h0.cmap hw
  obtain ⟨hsh, -⟩ := buildShared_ok c hc ⟨[], []⟩ w h0
  have hb : buildShared c ⟨[], []⟩ w = (⟨(c.cells.foldl (cellStep false) ([], w)).1,
    (c.pools.foldl (poolStep false) ([], (c.cells.foldl (cellStep false) ([], w)).2)).1⟩,
    (c.pools.foldl (poolStep false) ([], (c.cells.foldl (cellStep false) ([], w)).2)).2) := rfl
  obtain ⟨b1, b2, b3, b4, b5, b8, b9⟩ := poolLoop_spec false c.pools hc.pnodup [] _ (h0.pmap.ext a3) a2
  rw [hb] at hsh
  have hnew := buildOne_new c hc _ 0 _ hsh
  intro s
  have e1 : s.inst 0 = (buildOne c (buildShared c ⟨[], []⟩ w).1 0 (buildShared c ⟨[], []⟩ w).2).1 := by
    simp only [s, build, buildMany, upd, if_true]
  have e2 : s.world = (buildOne c (buildShared c ⟨[], []⟩ w).1 0 (buildShared c ⟨[], []⟩ w).2).2 := rfl
  rw [e1, e2, hb]
  generalize c.cells.foldl (cellStep false) ([], w) = a at *
  generalize c.pools.foldl (poolStep false) ([], a.2) = b at *
  generalize buildOne c ⟨a.1, b.1⟩ 0 b.2 = o at *
  refine ⟨?_, ?_, ?_, ?_⟩
  · intro k hk
    by_cases hs : k.shared = true
    · obtain ⟨i, h1, h2⟩ := a9 k hk (by simp [picks, hs, PyDict.has, PyDict.get?_nil])
      have hp : ¬ Private c.cells k.name := by
        rintro ⟨k', hk', hn, hs'⟩
        rw [name_unique hc.cnodup hk' hk hn, hs] at hs'; cases hs'
      have h3 := ((h2.ext b3).ext hnew.ext).2.2
      simp only [cellContents, abs, view, hnew.cshared _ hp, h1, Option.map_some, h3]
    · obtain ⟨i, h1, h2⟩ := hnew.cpriv k hk (by simpa using hs)
      simp only [cellContents, abs, view, h1, Option.map_some, h2.2.2]
  · intro k hk
    by_cases hs : k.shared = true
    · obtain ⟨i, h1, h2⟩ := b9 k hk (by simp [picks, hs, PyDict.has, PyDict.get?_nil])
      have hp : ¬ Private c.pools k.name := by
        rintro ⟨k', hk', hn, hs'⟩
        rw [name_unique hc.pnodup hk' hk hn, hs] at hs'; cases hs'
      have h3 := (h2.ext hnew.ext).2.2.2.2.1
      simp only [poolContents, abs, view, hnew.pshared _ hp, h1, Option.map_some, h3]
    · obtain ⟨i, h1, h2⟩ := hnew.ppriv k hk (by simpa using hs)
      simp only [poolContents, abs, view, h1, Option.map_some, h2.2.2.2.2.1]
  · intro n hn
    have hp : ¬ Private c.cells n := by rintro ⟨k', hk', hn', _⟩; exact hn k' hk' hn'
    simp only [cellContents, abs, view, hnew.cshared _ hp]
    rw [a8 n (fun k hk he => absurd he (hn k hk))]; rfl
  · intro n hn
    have hp : ¬ Private c.pools n := by rintro ⟨k', hk', hn', _⟩; exact hn k' hk' hn'
    simp only [poolContents, abs, view, hnew.pshared _ hp]
    rw [b8 n (fun k hk he => absurd he (hn k hk))]; rfl

/-! ## Restoring -/

/-- The engine's cells and pools are declared, hold data of their types, and are not both shared
and rollback. -/
structure Typed (L : Lim) (env : Env) (U : AType → Prop) (D : Decls) (s : Inst) (w : World) : Prop where
  cwf : PyDict.WF s.cells
  pwf : PyDict.WF s.pools
  cell : ∀ n i, PyDict.get? s.cells n = some i → ∃ t, PyDict.get? D.cells n = some t ∧ U t ∧
    Avro.Conf L env t (w.cell i).value
  pool : ∀ n i, PyDict.get? s.pools n = some i → ∃ t, PyDict.get? D.pools n = some t ∧ U (.map t) ∧
    Avro.Conf L env (.map t) (.dict (w.dict (w.pool i).value))
  cexcl : ∀ n i, PyDict.get? s.cells n = some i → ((w.cell i).shared && (w.cell i).rollback) = false
  pexcl : ∀ n i, PyDict.get? s.pools n = some i → ((w.pool i).shared && (w.pool i).rollback) = false

theorem mapD_viaJson {d : List (String × Val)} (h : ∀ k x, (k, x) ∈ d → hasBytes x = false) : mapD viaJson d = .ok d := by
  have := mapD_map (f := viaJson) (g := Prod.snd) (d := d) (fun kv hkv => by
    simp [viaJson, h kv.1 kv.2 hkv])
  rw [this]
  congr 1
  simp

/-- C17: when every cell and pool holds data of its declared type (tagged unions, text for bytes),
the snapshot exists, can be read back, and the engine built from it holds equal data in the same cells
and pools.  The full claim has no such condition: the code stores untagged data in union cells
(`snapshot_untagged_violation`) and bytes objects (`snapshot_bytes_violation`). -/
theorem snapshot_restores_partial {pf : List Char → Option Flt} {L : Lim} {env : Env} {U : AType → Prop}
    (hL : Plain L) (hU : Tags env U) {D : Decls} {s : Inst} {w : World} (hT : Typed L env U D s w) (zero : Val)
    (w' : World) (hw : AllLive w') :
    ∃ snap, snapshot D zero s w = .ok snap ∧ ∃ N, ∀ n ≥ N, ∃ c, readSnap pf env n snap = .ok c ∧
      let e := build c ⟨[], []⟩ 1 w'
      (∀ name, (cellContents s w name = none → cellContents (e.inst 0) e.world name = none) ∧
        ∀ v, cellContents s w name = some v →
          ∃ u, cellContents (e.inst 0) e.world name = some u ∧ PyEq u v) ∧
      (∀ name, (poolContents s w name = none → poolContents (e.inst 0) e.world name = none) ∧
        ∀ d, poolContents s w name = some d →
          ∃ u, poolContents (e.inst 0) e.world name = some u ∧ PyEq (.dict u) (.dict d)) := by
  -- cells
  have hc : ∀ kv ∈ s.cells, ∃ u, Ends (dec pf env) ((PyDict.get? D.cells kv.1).getD .null) (w.cell kv.2).value u ∧
      PyEq u (w.cell kv.2).value := by
    intro kv hkv
    obtain ⟨t, h1, h2, h3⟩ := hT.cell kv.1 kv.2 (PyDict.get?_of_mem hT.cwf hkv)
    obtain ⟨u, h4, h5, h6⟩ := dec_fix (pf := pf) hL hU h2 h3
    exact ⟨u, by rw [h1]; exact h4, h5⟩
  obtain ⟨g, hg⟩ := choose_mem hc
  have hp : ∀ kv ∈ s.pools, ∃ u : PyDict String Val, Ends (dec pf env) (.map ((PyDict.get? D.pools kv.1).getD .null))
      (.dict (w.dict (w.pool kv.2).value)) (.dict u) ∧ PyEq (.dict u) (.dict (w.dict (w.pool kv.2).value)) := by
    intro kv hkv
    obtain ⟨t, h1, h2, h3⟩ := hT.pool kv.1 kv.2 (PyDict.get?_of_mem hT.pwf hkv)
    obtain ⟨u, h4, h5, h6⟩ := dec_fix (pf := pf) hL hU h2 h3
    cases h6 with
    | map _ _ => exact ⟨_, by rw [h1]; exact h4, h5⟩
  haveI : Inhabited (PyDict String Val) := ⟨[]⟩
  obtain ⟨q, hq⟩ := choose_mem hp
  have sc : mapR (snapCell D w) s.cells = .ok (s.cells.map (fun kv => ⟨kv.1, ((PyDict.get? D.cells kv.1).getD .null,
      (w.cell kv.2).value), (w.cell kv.2).shared, (w.cell kv.2).rollback⟩)) := by
    refine mapR_map (fun kv hkv => ?_)
    have hget := PyDict.get?_of_mem hT.cwf hkv
    obtain ⟨t, h1, h2, h3⟩ := hT.cell kv.1 kv.2 hget
    simp only [snapCell, h1, viaJson, conf_noBytes hL h3, Bool.false_eq_true, if_false, hT.cexcl _ _ hget, Option.getD_some]
  have sp : mapR (snapPool D w) s.pools = .ok (s.pools.map (fun kv => ⟨kv.1, ((PyDict.get? D.pools kv.1).getD .null,
      w.dict (w.pool kv.2).value), (w.pool kv.2).shared, (w.pool kv.2).rollback⟩)) := by
    refine mapR_map (fun kv hkv => ?_)
    have hget := PyDict.get?_of_mem hT.pwf hkv
    obtain ⟨t, h1, h2, h3⟩ := hT.pool kv.1 kv.2 hget
    have hb : mapD viaJson (w.dict (w.pool kv.2).value) = .ok (w.dict (w.pool kv.2).value) := by
      refine mapD_viaJson (fun k x hx => ?_)
      cases h3 with
      | map _ h => exact conf_noBytes hL (h k x hx)
    simp only [snapPool, h1, hb, hT.pexcl _ _ hget, Bool.false_eq_true, if_false, Option.getD_some]
  refine ⟨_, (by simp only [snapshot, sc, sp]; rfl), ?_⟩
  obtain ⟨N, hN⟩ := ev_list (P := fun n (kv : String × Nat) => dec pf env n ((PyDict.get? D.cells kv.1).getD .null)
    (w.cell kv.2).value = .ok (g kv)) (xs := s.cells) (fun kv hkv => (hg kv hkv).1)
  obtain ⟨M, hM⟩ := ev_list (P := fun n (kv : String × Nat) => dec pf env n (.map ((PyDict.get? D.pools kv.1).getD .null))
    (.dict (w.dict (w.pool kv.2).value)) = .ok (.dict (q kv))) (xs := s.pools) (fun kv hkv => (hq kv hkv).1)
  refine ⟨max N M, fun n hn => ?_⟩
  have rc : mapR (readCell pf env n) (s.cells.map (fun kv => ⟨kv.1, ((PyDict.get? D.cells kv.1).getD .null,
      (w.cell kv.2).value), (w.cell kv.2).shared, (w.cell kv.2).rollback⟩)) =
      .ok (s.cells.map (fun kv => ⟨kv.1, g kv, (w.cell kv.2).shared, (w.cell kv.2).rollback⟩)) := by
    rw [mapR_ok, List.forall₂_map_left_iff, List.forall₂_map_right_iff, List.forall₂_same]
    intro kv hkv
    simp only [readCell, hN n (by omega) kv hkv]
  have rp : mapR (readPool pf env n) (s.pools.map (fun kv => ⟨kv.1, ((PyDict.get? D.pools kv.1).getD .null,
      w.dict (w.pool kv.2).value), (w.pool kv.2).shared, (w.pool kv.2).rollback⟩)) =
      .ok (s.pools.map (fun kv => ⟨kv.1, q kv, (w.pool kv.2).shared, (w.pool kv.2).rollback⟩)) := by
    rw [mapR_ok, List.forall₂_map_left_iff, List.forall₂_map_right_iff, List.forall₂_same]
    intro kv hkv
    simp only [readPool, hM n (by omega) kv hkv]
  refine ⟨_, (by simp only [readSnap, rc, rp]; rfl), ?_⟩
  obtain ⟨k1, k2, k3, k4⟩ := build_contents ⟨s.cells.map (fun kv => ⟨kv.1, g kv, (w.cell kv.2).shared, (w.cell kv.2).rollback⟩),
    s.pools.map (fun kv => ⟨kv.1, q kv, (w.pool kv.2).shared, (w.pool kv.2).rollback⟩), zero⟩
    ⟨by simp only [List.map_map, Function.comp_def]; exact hT.cwf, by simp only [List.map_map, Function.comp_def]; exact hT.pwf,
     by
      intro k hk h
      obtain ⟨kv, hkv, rfl⟩ := List.mem_map.1 hk
      have := hT.cexcl _ _ (PyDict.get?_of_mem hT.cwf hkv)
      simp only at h ⊢
      rw [h] at this; simpa using this,
     by
      intro k hk h
      obtain ⟨kv, hkv, rfl⟩ := List.mem_map.1 hk
      have := hT.pexcl _ _ (PyDict.get?_of_mem hT.pwf hkv)
      simp only at h ⊢
      rw [h] at this; simpa using this⟩ w' hw
  refine ⟨fun name => ⟨fun h => ?_, fun v h => ?_⟩, fun name => ⟨fun h => ?_, fun v h => ?_⟩⟩
  · refine k3 name (fun k hk he => ?_)
    obtain ⟨kv, hkv, rfl⟩ := List.mem_map.1 hk
    simp only at he; subst he
    simp only [cellContents, abs, view, PyDict.get?_of_mem hT.cwf hkv] at h
    cases h
  · simp only [cellContents, abs, view, Option.map_eq_some_iff] at h
    obtain ⟨i, h1, rfl⟩ := h
    have hm := PyDict.mem_of_get? h1
    exact ⟨g (name, i), k1 _ (List.mem_map.2 ⟨(name, i), hm, rfl⟩), (hg _ hm).2⟩
  · refine k4 name (fun k hk he => ?_)
    obtain ⟨kv, hkv, rfl⟩ := List.mem_map.1 hk
    simp only at he; subst he
    simp only [poolContents, abs, view, PyDict.get?_of_mem hT.pwf hkv] at h
    cases h
  · simp only [poolContents, abs, view, Option.map_eq_some_iff] at h
    obtain ⟨i, h1, rfl⟩ := h
    have hm := PyDict.mem_of_get? h1
    exact ⟨q (name, i), k2 _ (List.mem_map.2 ⟨(name, i), hm, rfl⟩), (hq _ hm).2⟩

/-- C17: a snapshot lists the cells and pools of the engine with their flags, and reading it back keeps
names, flags and the initial tally. -/
theorem snapshot_flags {pf : List Char → Option Flt} {env : Env} {n : Nat} {D : Decls} {zero : Val} {s : Inst} {w : World}
    {snap : Snap} {c : Config} (h : snapshot D zero s w = .ok snap) (hr : readSnap pf env n snap = .ok c) :
    c.cells.map (fun k => (k.name, k.shared, k.rollback)) =
      s.cells.map (fun kv => (kv.1, (w.cell kv.2).shared, (w.cell kv.2).rollback)) ∧
    c.pools.map (fun k => (k.name, k.shared, k.rollback)) =
      s.pools.map (fun kv => (kv.1, (w.pool kv.2).shared, (w.pool kv.2).rollback)) ∧ c.zero = zero := by
  have key : ∀ {α β γ : Type} {f : α → Res β} {p : α → γ} {q : β → γ} {xs : List α} {ys : List β},
      (∀ x y, f x = .ok y → q y = p x) → mapR f xs = .ok ys → ys.map q = xs.map p := by
    intro α β γ f p q xs ys hf hm
    rw [mapR_ok] at hm
    induction hm with
    | nil => rfl
    | cons h _ ih => rw [List.map_cons, List.map_cons, ih, hf _ _ h]
  unfold snapshot at h
  cases h1 : mapR (snapCell D w) s.cells with
  | error => rw [h1] at h; cases h
  | ok cs =>
    cases h2 : mapR (snapPool D w) s.pools with
    | error => rw [h1, h2] at h; cases h
    | ok ps =>
      rw [h1, h2] at h; cases h
      unfold readSnap at hr
      cases h3 : mapR (readCell pf env n) cs with
      | error => simp only [h3] at hr; cases hr
      | ok cs' =>
        cases h4 : mapR (readPool pf env n) ps with
        | error => simp only [h3, h4] at hr; cases hr
        | ok ps' =>
          simp only [h3, h4] at hr; cases hr
          refine ⟨?_, ?_, rfl⟩
          · rw [key (p := fun k => (k.name, k.shared, k.rollback)) _ h3, key _ h1]
            · intro x y hxy
              unfold snapCell at hxy
              split at hxy
              · cases hxy
              · split at hxy
                · cases hxy
                · split at hxy <;> cases hxy
                  rfl
            · intro x y hxy
              unfold readCell at hxy
              split at hxy <;> cases hxy
              rfl
          · rw [key (p := fun k => (k.name, k.shared, k.rollback)) _ h4, key _ h2]
            · intro x y hxy
              unfold snapPool at hxy
              split at hxy
              · cases hxy
              · split at hxy
                · cases hxy
                · split at hxy <;> cases hxy
                  rfl
            · intro x y hxy
              unfold readPool at hxy
              split at hxy <;> cases hxy
              rfl

/-! ## Where it fails -/

/-- A document with one cell of type union of null and int, initially null. -/
def optDecls : Decls := ⟨[("x", .union [.null, .int])], []⟩
def optConfig : Config := ⟨[⟨"x", .null, false, false⟩], [], .null⟩
/-- `{"cell": "x", "to": 12}`: the type checker accepts int where the union is expected, and the
generated code stores the bare value (genpy.py 387-388). -/
def optDef : Def :=
  { method := .map, check := .ok, action := fun _ => .cellTo "x" [] (fun _ => .ret (.int 12)) (fun v => .ret v)
    merge := fun a _ => .ret a, begin := .ret .null, «end» := fun _ _ _ => .ret .null }

/-- After one action the cell holds the untagged number; the snapshot is written but no engine can be
built from it. -/
theorem snapshot_untagged_violation (pf : List Char → Option Flt) (env : Env) :
    accepts env env (.union [.null, .int]) .int = true ∧
    ∃ s w, (Sys.history optDef [(0, .action .null)] (build optConfig ⟨[], []⟩ 1 exWorld)).2 = s ∧
      (s.inst 0, s.world) = w ∧ cellContents w.1 w.2 "x" = some (.int 12) ∧
      ∃ snap, snapshot optDecls .null w.1 w.2 = .ok snap ∧ ∀ n, ∃ e, readSnap pf env n snap = .error e := by
  refine ⟨rfl, _, _, rfl, rfl, rfl, ⟨[⟨"x", (.union [.null, .int], .int 12), false, false⟩], [], .null⟩, rfl, ?_⟩
  intro n
  cases n <;> exact ⟨_, rfl⟩

/-- Input of type bytes is a bytes object; once stored in a cell no snapshot can be taken. -/
theorem snapshot_bytes_violation (b : List Nat) (zero : Val) (s : Inst) (w : World) (i : Nat) (D : Decls) (t : AType)
    (hs : s.cells = [("x", i)]) (hD : PyDict.get? D.cells "x" = some t) (hv : (w.cell i).value = .bytes b) :
    snapshot D zero s w = .error (.py "TypeError") := by
  simp [snapshot, hs, mapR, snapCell, hD, hv, viaJson, hasBytes]

/-- Instances built with a shared state hold the shared cells of other documents as well; no snapshot
of them can be taken. -/
theorem snapshot_shared_violation :
    let w1 := build ⟨[⟨"a", .int 1, true, false⟩], [], .null⟩ ⟨[], []⟩ 1 exWorld
    let sh : Shared := ⟨[("a", 0)], []⟩
    let w2 := build ⟨[⟨"b", .int 2, false, false⟩], [], .null⟩ sh 1 w1.world
    (buildShared ⟨[⟨"a", .int 1, true, false⟩], [], .null⟩ ⟨[], []⟩ exWorld).1 = sh ∧
    snapshot ⟨[("b", .int)], []⟩ .null (w2.inst 0) w2.world = .error (.py "KeyError") := ⟨rfl, rfl⟩

/-- The tally of a fold engine is not part of the snapshot: the new engine starts from zero. -/
theorem snapshot_tally_violation :
    let d : Def := { method := .fold, check := .ok, action := fun _ => .ret (.int 5), merge := fun a _ => .ret a
                     begin := .ret .null, «end» := fun _ _ _ => .ret .null }
    let s := (Sys.history d [(0, .action .null)] (build ⟨[], [], .int 0⟩ ⟨[], []⟩ 1 exWorld)).2
    (s.inst 0).tally = .int 5 ∧
    ∃ snap, snapshot ⟨[], []⟩ (.int 0) (s.inst 0) s.world = .ok snap ∧
      ∀ pf env n, ∃ c, readSnap pf env n snap = .ok c ∧ ((build c ⟨[], []⟩ 1 exWorld).inst 0).tally = .int 0 :=
  ⟨rfl, ⟨[], [], .int 0⟩, rfl, fun _ _ _ => ⟨⟨[], [], .int 0⟩, rfl, rfl⟩⟩

/-! ## A concrete case -/

/-- An engine with a tree in a cell and a shared pool of trees. -/
def treeConfig : Config :=
  ⟨[⟨"t", .dict [("right", .null), ("value", .int 7), ("left", .null)], false, true⟩], [], .null⟩

theorem tree_typed : Typed strict treeEnv treeTypes ⟨[("t", .record ⟨"", "Tree"⟩)], []⟩
    ((build treeConfig ⟨[], []⟩ 1 exWorld).inst 0) (build treeConfig ⟨[], []⟩ 1 exWorld).world where
  cwf := by decide
  pwf := by decide
  cell n i h := by
    have h' : PyDict.get? [("t", 0)] n = some i := h
    simp only [PyDict.get?] at h'
    split at h'
    · next he =>
      subst he; cases h'
      exact ⟨_, rfl, .inl rfl, tree_conf⟩
    · cases h'
  pool n i h := by
    have h' : PyDict.get? ([] : PyDict String Nat) n = some i := h
    cases h'
  cexcl n i h := by
    have h' : PyDict.get? [("t", 0)] n = some i := h
    simp only [PyDict.get?] at h'
    split at h'
    · cases h'; rfl
    · cases h'
  pexcl n i h := by
    have h' : PyDict.get? ([] : PyDict String Nat) n = some i := h
    cases h'

end Verif.Engine
