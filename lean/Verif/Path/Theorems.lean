import Verif.Path.Model
/-! # C12: path read and update obey the lens laws -/

namespace Verif.Path
open Verif.Avro

/-! ## Specification -/

/-- The item a path element selects in a container, if it is there: positions count from 0. -/
def item : Val → Elem → Option Val
  | .arr xs, .idx i => if 0 ≤ i then xs[i.toNat]? else none
  | .dict d, .key k => PyDict.get? d k
  | _, _ => none

/-- The value at the end of a path, if the path exists. -/
def read : Val → Path → Option Val
  | v, [] => some v
  | v, e :: p => (item v e).bind (read · p)

/-- The path only applies indexes to arrays and keys to maps/records, as the type checker
guarantees (pfaast.py 1343-1406), and every index is non-negative. -/
def Fits : Val → Path → Prop
  | _, [] => True
  | .arr xs, .idx i :: p => 0 ≤ i ∧ ∀ x, xs[i.toNat]? = some x → Fits x p
  | .dict d, .key k :: p => ∀ x, PyDict.get? d k = some x → Fits x p
  | _, _ => False

/-- Two paths part ways at some point. -/
inductive Diverge : Path → Path → Prop
  | here {e e' p q} : e ≠ e' → Diverge (e :: p) (e' :: q)
  | there {e p q} : Diverge p q → Diverge (e :: p) (e :: q)

/-- Same container shape: same list length, same keys in the same order. -/
def SameShape : Val → Val → Prop
  | .arr xs, .arr ys => xs.length = ys.length
  | .dict d, .dict e => PyDict.keys d = PyDict.keys e
  | a, b => a = b

/-! ## Lemmas about the loops -/

section
variable {f : Val → SM Unit Val}

theorem updDict_absent (k : String) (d : List (String × Val)) (h : PyDict.get? d k = none) :
    updDict f k d () = (.ok d, ()) := by
  induction d with
  | nil => rfl
  | cons kv d ih =>
    obtain ⟨k', v⟩ := kv
    simp only [PyDict.get?_cons] at h
    split at h
    · cases h
    · next hk => simp only [updDict, hk, if_false, ih h]

theorem updDict_present (k : String) (d : List (String × Val)) (hd : PyDict.WF d) (x : Val)
    (h : PyDict.get? d k = some x) :
    updDict f k d () = match (f x ()).1 with
      | .ok y => (.ok (PyDict.set d k y), ())
      | .error e => (.error e, ()) := by
  induction d with
  | nil => simp at h
  | cons kv d ih =>
    obtain ⟨k', v⟩ := kv
    have hd' : k' ∉ PyDict.keys d ∧ PyDict.WF d := by
      simpa [PyDict.WF, PyDict.keys] using hd
    simp only [PyDict.get?_cons] at h
    split at h
    · next hk =>
      cases h
      subst hk
      have := updDict_absent (f := f) k' d ((PyDict.get?_eq_none_iff d k').2 hd'.1)
      cases hf : f x () with
      | mk r u =>
        cases r with
        | ok y => simp [updDict, hf, this, PyDict.set]
        | error e => simp [updDict, hf]
    · next hk =>
      simp only [updDict, hk, if_false, ih hd'.2 h]
      cases (f x ()).1 <;> simp [PyDict.set, hk]

theorem updList_absent (i j : Int) (xs : List Val) (h : i < j ∨ j + xs.length ≤ i) :
    updList f i j xs () = (.ok xs, ()) := by
  induction xs generalizing j with
  | nil => rfl
  | cons x xs ih =>
    have hne : j ≠ i := by
      simp only [List.length_cons] at h; omega
    simp only [updList, hne, if_false]
    rw [ih (j + 1) (by simp only [List.length_cons] at h; push_cast at h; omega)]

theorem updList_present (n : Nat) (j : Int) (xs : List Val) (x : Val) (h : xs[n]? = some x) :
    updList f (j + n) j xs () = match (f x ()).1 with
      | .ok y => (.ok (xs.set n y), ())
      | .error e => (.error e, ()) := by
  induction n generalizing j xs with
  | zero =>
    cases xs with
    | nil => simp at h
    | cons z xs =>
      simp only [List.getElem?_cons_zero, Option.some.injEq] at h
      subst h
      have := updList_absent (f := f) j (j + 1) xs (Or.inl (by omega))
      cases hf : f z () with
      | mk r u =>
        cases r with
        | ok y => simp [updList, hf, this]
        | error e => simp [updList, hf]
  | succ n ih =>
    cases xs with
    | nil => simp at h
    | cons z xs =>
      have hne : j ≠ j + (n + 1 : Nat) := by omega
      simp only [updList, hne, if_false]
      have := ih (j + 1) xs (by simpa using h)
      rw [show j + 1 + (n : Int) = j + (n + 1 : Nat) by push_cast; omega] at this
      rw [this]
      cases (f x ()).1 <;> simp

end

/-- Every dict inside a value has distinct keys.  True of all Python values. -/
def WFAt : Val → Path → Prop
  | .dict d, p => PyDict.WF d ∧ match p with
    | .key k :: p => ∀ x, PyDict.get? d k = some x → WFAt x p
    | _ => True
  | .arr xs, .idx i :: p => ∀ x, xs[i.toNat]? = some x → WFAt x p
  | _, _ => True

/-- One step of `update` on an existing path. -/
theorem update_cons (a m : Int) (repl : Val → Res Val) (e : Elem) (p : Path) (v x : Val)
    (hw : WFAt v (e :: p)) (h : item v e = some x) :
    update a m repl (e :: p) v = match update a m repl p x with
      | .error err => .error err
      | .ok y => match v, e with
        | .arr xs, .idx i => .ok (.arr (xs.set i.toNat y))
        | .dict d, .key k => .ok (.dict (PyDict.set d k y))
        | _, _ => .error (.py "Exception") := by
  cases v with
  | null | bool | int | flt | str | bytes => cases e <;> simp [item] at h
  | arr xs =>
    cases e with
    | key => simp [item] at h
    | idx i =>
      simp only [item] at h
      split at h
      · next hi =>
        have hlt : i.toNat < xs.length := by
          rcases Nat.lt_or_ge i.toNat xs.length with h' | h'
          · exact h'
          · rw [List.getElem?_eq_none h'] at h; cases h
        have hcond : ¬ ((p ≠ [] ∧ i ≥ xs.length) ∨ i < 0) := by omega
        have hp := updList_present (f := updateM (σ := Unit) a m (fun v s => (repl v, s)) p)
          i.toNat 0 xs x h
        rw [show (0 : Int) + (i.toNat : Int) = i by omega] at hp
        simp only [update, updateM]
        rw [if_neg hcond, hp]
        cases (updateM (σ := Unit) a m (fun v s => (repl v, s)) p x ()).1 <;> rfl
      · cases h
  | dict d =>
    cases e with
    | idx => simp [item] at h
    | key k =>
      simp only [item] at h
      have hcond : ¬ (p ≠ [] ∧ PyDict.has d k = false) := by simp [PyDict.has, h]
      have hp := updDict_present (f := updateM (σ := Unit) a m (fun v s => (repl v, s)) p)
          k d hw.1 x h
      simp only [update, updateM]
      rw [if_neg hcond, hp]
      cases (updateM (σ := Unit) a m (fun v s => (repl v, s)) p x ()).1 <;> rfl

theorem WFAt_item {v : Val} {e : Elem} {p : Path} {x : Val} (hw : WFAt v (e :: p))
    (h : item v e = some x) : WFAt x p := by
  cases v with
  | null | bool | int | flt | str | bytes => cases e <;> simp [item] at h
  | arr xs =>
    cases e with
    | key => simp [item] at h
    | idx i =>
      simp only [item] at h
      split at h
      · exact hw x h
      · cases h
  | dict d =>
    cases e with
    | idx => simp [item] at h
    | key k => exact hw.2 x h

/-! ## Theorems -/

/-- C12 (update succeeds on an existing path, and reads back): if the path exists and the
replacement gives `y`, `update` succeeds and the new value has `y` at the path. -/
theorem update_read (a m : Int) (repl : Val → Res Val) (p : Path) (v x y : Val)
    (hw : WFAt v p) (h : read v p = some x) (ht : repl x = .ok y) :
    ∃ v', update a m repl p v = .ok v' ∧ read v' p = some y := by
  induction p generalizing v with
  | nil =>
    simp only [read, Option.some.injEq] at h
    subst h
    exact ⟨y, by simp [update, updateM, ht], rfl⟩
  | cons e p ih =>
    simp only [read, Option.bind_eq_some_iff] at h
    obtain ⟨z, hz, hr⟩ := h
    obtain ⟨w, hw1, hw2⟩ := ih z (WFAt_item hw hz) hr
    rw [update_cons a m repl e p v z hw hz, hw1]
    cases v with
    | null | bool | int | flt | str | bytes => cases e <;> simp [item] at hz
    | arr xs =>
      cases e with
      | key => simp [item] at hz
      | idx i =>
        refine ⟨_, rfl, ?_⟩
        simp only [item] at hz
        split at hz
        · next hi =>
          have hlt : i.toNat < xs.length := by
            rcases Nat.lt_or_ge i.toNat xs.length with h' | h'
            · exact h'
            · rw [List.getElem?_eq_none h'] at hz; cases hz
          simp [read, item, hi, hlt, hw2]
        · cases hz
    | dict d =>
      cases e with
      | idx => simp [item] at hz
      | key k => exact ⟨_, rfl, by simp [read, item, hw2]⟩

/-- C12 (frame): an update at `p` does not change what is read at any diverging path `q`. -/
theorem update_frame (a m : Int) (repl : Val → Res Val) (p q : Path) (v v' x : Val)
    (hw : WFAt v p) (h : read v p = some x) (hu : update a m repl p v = .ok v')
    (hd : Diverge p q) : read v' q = read v q := by
  induction p generalizing v v' q with
  | nil => cases hd
  | cons e p ih =>
    simp only [read, Option.bind_eq_some_iff] at h
    obtain ⟨z, hz, hr⟩ := h
    rw [update_cons a m repl e p v z hw hz] at hu
    cases hup : update a m repl p z with
    | error err => simp [hup] at hu
    | ok w =>
      simp only [hup] at hu
      cases v with
      | null | bool | int | flt | str | bytes => cases e <;> simp [item] at hz
      | arr xs =>
        cases e with
        | key => simp [item] at hz
        | idx i =>
          simp only [Except.ok.injEq] at hu
          subst hu
          simp only [item] at hz
          split at hz
          · next hi =>
            have hlt : i.toNat < xs.length := by
              rcases Nat.lt_or_ge i.toNat xs.length with h' | h'
              · exact h'
              · rw [List.getElem?_eq_none h'] at hz; cases hz
            cases hd with
            | @here _ e' _ q' hne =>
              cases e' with
              | key => simp [read, item]
              | idx j =>
                by_cases hj : 0 ≤ j
                · have : i.toNat ≠ j.toNat := by
                    intro hc; apply hne; congr 1; omega
                  simp [read, item, hj, this]
                · simp [read, item, hj]
            | @there _ _ q' hd' =>
              have := ih q' z w (hw z hz) hr hup hd'
              have hz' : xs[i.toNat] = z := by simpa [hlt] using hz
              simp [read, item, hi, hlt, this, hz']
          · cases hz
      | dict d =>
        cases e with
        | idx => simp [item] at hz
        | key k =>
          simp only [Except.ok.injEq] at hu
          subst hu
          simp only [item] at hz
          cases hd with
          | @here _ e' _ q' hne =>
            cases e' with
            | idx => simp [read, item]
            | key j =>
              have : k ≠ j := by intro hc; apply hne; rw [hc]
              simp [read, item, PyDict.get?_set_ne _ _ this]
          | @there _ _ q' hd' =>
            have := ih q' z w (hw.2 z hz) hr hup hd'
            simp [read, item, this, hz]

/-- C12 (shape): every container along the path keeps its length or its keys. -/
theorem update_shape (a m : Int) (repl : Val → Res Val) (p q : Path) (v v' x w w' : Val)
    (hw : WFAt v (p ++ q)) (hq : q ≠ []) (h : read v (p ++ q) = some x)
    (hu : update a m repl (p ++ q) v = .ok v')
    (h1 : read v p = some w) (h2 : read v' p = some w') : SameShape w w' := by
  induction p generalizing v v' with
  | nil =>
    simp only [read, Option.some.injEq] at h1 h2
    subst h1; subst h2
    obtain ⟨e, q, rfl⟩ := List.exists_cons_of_ne_nil hq
    simp only [List.nil_append, read, Option.bind_eq_some_iff] at h
    obtain ⟨z, hz, hr⟩ := h
    simp only [List.nil_append] at hu hw
    rw [update_cons a m repl e q v z hw hz] at hu
    cases hup : update a m repl q z with
    | error err => simp [hup] at hu
    | ok y =>
      simp only [hup] at hu
      cases v with
      | null | bool | int | flt | str | bytes => cases e <;> simp [item] at hz
      | arr xs =>
        cases e with
        | key => simp [item] at hz
        | idx i =>
          simp only [Except.ok.injEq] at hu
          subst hu
          simp [SameShape]
      | dict d =>
        cases e with
        | idx => simp [item] at hz
        | key k =>
          simp only [Except.ok.injEq] at hu
          subst hu
          simp only [SameShape]
          rw [PyDict.keys_set, if_pos (PyDict.mem_keys_of_get? hz)]
  | cons e p ih =>
    simp only [List.cons_append, read, Option.bind_eq_some_iff] at h h1 h2
    obtain ⟨z, hz, hr⟩ := h
    obtain ⟨z1, hz1, hr1⟩ := h1
    obtain ⟨z2, hz2, hr2⟩ := h2
    rw [hz] at hz1; cases hz1
    simp only [List.cons_append] at hu hw
    rw [update_cons a m repl e (p ++ q) v z hw hz] at hu
    cases hup : update a m repl (p ++ q) z with
    | error err => simp [hup] at hu
    | ok y =>
      simp only [hup] at hu
      have key : z2 = y := by
        cases v with
        | null | bool | int | flt | str | bytes => cases e <;> simp [item] at hz
        | arr xs =>
          cases e with
          | key => simp [item] at hz
          | idx i =>
            simp only [Except.ok.injEq] at hu
            subst hu
            simp only [item] at hz hz2
            split at hz
            · next hi =>
              have hlt : i.toNat < xs.length := by
                rcases Nat.lt_or_ge i.toNat xs.length with h' | h'
                · exact h'
                · rw [List.getElem?_eq_none h'] at hz; cases hz
              simp [hi, hlt] at hz2
              exact hz2.symm
            · cases hz
        | dict d =>
          cases e with
          | idx => simp [item] at hz
          | key k =>
            simp only [Except.ok.injEq] at hu
            subst hu
            simp [item] at hz2
            exact hz2.symm
      subst key
      exact ih z z2 (WFAt_item hw hz) hr hup hr1 hr2

/-- C12 (read): on a fitting path, `get` returns the value at the path when the path exists,
and otherwise raises the array or map error; nothing else can be raised. -/
theorem get_eq_read (a m : Int) (v : Val) (p : Path) (hf : Fits v p) :
    match read v p with
    | some x => get a m v p = .ok x
    | none => get a m v p = .error (.rt a) ∨ get a m v p = .error (.rt m) := by
  induction p generalizing v with
  | nil => simp [read, get]
  | cons e p ih =>
    cases v with
    | null | bool | int | flt | str | bytes => cases e <;> simp [Fits] at hf
    | arr xs =>
      cases e with
      | key => simp [Fits] at hf
      | idx i =>
        obtain ⟨hi, hf⟩ := hf
        cases hx : xs[i.toNat]? with
        | none => simp [read, item, hi, hx, get, getStep, pyIndex]
        | some x =>
          have := ih x (hf x hx)
          simpa [read, item, hi, hx, get, getStep, pyIndex] using this
    | dict d =>
      cases e with
      | idx => simp [Fits] at hf
      | key k =>
        cases hx : PyDict.get? d k with
        | none => simp [read, item, hx, get, getStep]
        | some x =>
          have := ih x (hf x hx)
          simpa [read, item, hx, get, getStep] using this

/-- The error code for a step that is missing from the container `x`. -/
def missingCode (a m : Int) : Val → Int
  | .arr _ => a
  | _ => m

/-- C12 (read, error codes): the step that is missing decides the code: `a` in an array, `m` in a map
or record. -/
theorem get_missing_code (a m : Int) (v : Val) (p : Path) (e : Elem) (q : Path) (x : Val)
    (hf : Fits v (p ++ e :: q)) (hx : read v p = some x) (hm : item x e = none) :
    get a m v (p ++ e :: q) = .error (.rt (missingCode a m x)) := by
  induction p generalizing v with
  | nil =>
    simp only [read, Option.some.injEq] at hx
    subst hx
    cases v with
    | null | bool | int | flt | str | bytes => cases e <;> simp [Fits] at hf
    | arr xs =>
      cases e with
      | key k => simp [Fits] at hf
      | idx i =>
        simp only [List.nil_append, Fits] at hf
        simp only [item, if_pos hf.1] at hm
        simp [get, getStep, pyIndex, hf.1, hm, missingCode]
    | dict d =>
      cases e with
      | idx i => simp [Fits] at hf
      | key k =>
        simp only [item] at hm
        simp [get, getStep, hm, missingCode]
  | cons e' p ih =>
    simp only [read, Option.bind_eq_some_iff] at hx
    obtain ⟨y, hy, hr⟩ := hx
    cases v with
    | null | bool | int | flt | str | bytes => cases e' <;> simp [Fits] at hf
    | arr xs =>
      cases e' with
      | key k => simp [Fits] at hf
      | idx i =>
        simp only [List.cons_append, Fits] at hf
        simp only [item, if_pos hf.1] at hy
        simp only [List.cons_append, get, getStep, pyIndex, if_pos hf.1, hy]
        exact ih y (hf.2 y hy) hr
    | dict d =>
      cases e' with
      | idx i => simp [Fits] at hf
      | key k =>
        simp only [List.cons_append, Fits] at hf
        simp only [item] at hy
        simp only [List.cons_append, get, getStep, hy]
        exact ih y (hf y hy) hr

example : get 7 8 (.dict [("a", .arr [.int 1])]) [.key "a", .idx 3, .key "b"] = .error (.rt 7) :=
  get_missing_code 7 8 _ [.key "a"] (.idx 3) [.key "b"] (.arr [.int 1])
    (by simp [Fits, PyDict.get?]) (by simp [read, item, PyDict.get?]) (by simp [item])

/-- C12 (put-get): updating an existing path with a constant and then getting it gives the
constant, whatever error codes the two instructions use. -/
theorem get_update (a m a' m' : Int) (p : Path) (v x y v' : Val) (hw : WFAt v p)
    (h : read v p = some x) (hu : update a m (fun _ => .ok y) p v = .ok v') :
    get a' m' v' p = .ok y := by
  obtain ⟨v'', h1, h2⟩ := update_read a m (fun _ => .ok y) p v x y hw h rfl
  rw [hu] at h1; cases h1
  clear hu h hw
  induction p generalizing v' with
  | nil => simpa [read, get] using h2
  | cons e p ih =>
    simp only [read, Option.bind_eq_some_iff] at h2
    obtain ⟨z, hz, hr⟩ := h2
    have : getStep a' m' v' e = .ok z := by
      cases v' with
      | null | bool | int | flt | str | bytes => cases e <;> simp [item] at hz
      | arr xs =>
        cases e with
        | key => simp [item] at hz
        | idx i =>
          simp only [item] at hz
          split at hz
          · next hi => simp [getStep, pyIndex, hi, hz]
          · cases hz
      | dict d =>
        cases e with
        | idx => simp [item] at hz
        | key k => simp only [item] at hz; simp [getStep, hz]
    simp [get, this, ih z hr]

/-- C12 (get-put): writing back the value read changes nothing. -/
theorem update_get (a m : Int) (p : Path) (v x : Val) (hw : WFAt v p)
    (h : read v p = some x) : update a m (fun _ => .ok x) p v = .ok v := by
  induction p generalizing v with
  | nil =>
    simp only [read, Option.some.injEq] at h
    subst h; rfl
  | cons e p ih =>
    simp only [read, Option.bind_eq_some_iff] at h
    obtain ⟨z, hz, hr⟩ := h
    rw [update_cons a m _ e p v z hw hz, ih z (WFAt_item hw hz) hr]
    cases v with
    | null | bool | int | flt | str | bytes => cases e <;> simp [item] at hz
    | arr xs =>
      cases e with
      | key => simp [item] at hz
      | idx i =>
        simp only [item] at hz
        split at hz
        · next hi =>
          obtain ⟨hlt, rfl⟩ := List.getElem?_eq_some_iff.1 hz
          simp
        · cases hz
    | dict d =>
      cases e with
      | idx => simp [item] at hz
      | key k =>
        simp only [item] at hz
        simp only [Except.ok.injEq, Val.dict.injEq]
        clear hw hr ih
        induction d with
        | nil => simp at hz
        | cons kv d ih =>
          obtain ⟨k', v'⟩ := kv
          simp only [PyDict.get?_cons] at hz
          simp only [PyDict.set]
          split at hz
          · next hk => cases hz; simp [hk]
          · next hk => simp [hk, ih hz]

/-- C12 (errors of update): if an intermediate item is missing, the update raises the array or
map error of the instruction. -/
theorem update_missing_inner (a m : Int) (repl : Val → Res Val) (e : Elem) (p : Path) (v : Val)
    (hf : Fits v (e :: p)) (hp : p ≠ []) (h : item v e = none) :
    update a m repl (e :: p) v = .error (.rt a) ∨ update a m repl (e :: p) v = .error (.rt m) := by
  cases v with
  | null | bool | int | flt | str | bytes => cases e <;> simp [Fits] at hf
  | arr xs =>
    cases e with
    | key => simp [Fits] at hf
    | idx i =>
      left
      obtain ⟨hi, -⟩ := hf
      simp only [item, hi, if_true] at h
      have hge : (xs.length : Int) ≤ i := by
        rcases Nat.lt_or_ge i.toNat xs.length with h' | h'
        · simp [h'] at h
        · omega
      have hc : (p ≠ [] ∧ i ≥ (xs.length : Int)) ∨ i < 0 := Or.inl ⟨hp, hge⟩
      simp only [update, updateM, if_pos hc]
  | dict d =>
    cases e with
    | idx => simp [Fits] at hf
    | key k =>
      right
      simp only [item] at h
      have hc : p ≠ [] ∧ PyDict.has d k = false := ⟨hp, by simp [PyDict.has, h]⟩
      simp only [update, updateM, if_pos hc]

/-- The full error claim of C12 fails at the last path item: updating a missing map key or an
index past the end raises nothing and returns the container unchanged. -/
theorem update_missing_leaf_violation (a m : Int) (repl : Val → Res Val) (e : Elem) (v : Val)
    (hf : Fits v [e]) (h : item v e = none) : update a m repl [e] v = .ok v := by
  cases v with
  | null | bool | int | flt | str | bytes => cases e <;> simp [Fits] at hf
  | arr xs =>
    cases e with
    | key => simp [Fits] at hf
    | idx i =>
      obtain ⟨hi, -⟩ := hf
      simp only [item, hi, if_true] at h
      have hge : (xs.length : Int) ≤ i := by
        rcases Nat.lt_or_ge i.toNat xs.length with h' | h'
        · simp [h'] at h
        · omega
      have hc : ¬ ((([] : Path) ≠ [] ∧ i ≥ (xs.length : Int)) ∨ i < 0) := by
        simp; omega
      simp only [update, updateM, if_neg hc]
      rw [updList_absent i 0 xs (Or.inr (by omega))]
  | dict d =>
    cases e with
    | idx => simp [Fits] at hf
    | key k =>
      simp only [item] at h
      simp [update, updateM, updDict_absent k d h]

/-- The full error claim of C12 fails for reading: a negative index does not raise, it reads
from the end. -/
theorem get_negative_violation :
    ∃ (v : Val) (p : Path), read v p = none ∧ get 2000 2001 v p = .ok (.int 3) :=
  ⟨.arr [.int 1, .int 2, .int 3], [.idx (-1)], by decide, by decide⟩

/-- ... although updating at a negative index does raise. -/
theorem update_negative (a m : Int) (repl : Val → Res Val) (xs : List Val) (i : Int) (p : Path)
    (hi : i < 0) : update a m repl (.idx i :: p) (.arr xs) = .error (.rt a) := by
  simp only [update, updateM, if_pos (Or.inr hi : (p ≠ [] ∧ i ≥ (xs.length : Int)) ∨ i < 0)]

/-! Non-vacuity: a map of arrays of records. -/
example : let v : Val := .dict [("k", .arr [.dict [("x", .int 1), ("y", .int 2)]]), ("l", .null)]
    let p : Path := [.key "k", .idx 0, .key "x"]
    read v p = some (.int 1) ∧ WFAt v p ∧ Fits v p ∧
    update 1 2 (fun _ => .ok (.int 9)) p v =
      .ok (.dict [("k", .arr [.dict [("x", .int 9), ("y", .int 2)]]), ("l", .null)]) := by
  refine ⟨by decide, ?_, ?_, by decide⟩
  · simp [WFAt, PyDict.WF, PyDict.keys, PyDict.get?]
  · simp [Fits, PyDict.get?]
example : Diverge [.key "k", .idx 0, .key "x"] [.key "k", .idx 0, .key "y"] :=
  .there (.there (.here (by decide)))

end Verif.Path
