import Verif.Lib.Num
import Verif.Py.Basic
import Verif.Avro.Basic
import Verif.Arith.Double
/-!
# Engine options (C41)

Models `EngineOptions` of `titus/options.py` 22-48.  Option values are Pythonized JSON (`Val`).
-/

namespace Verif.Sig

open Avro

/-! ## Model -/

/-- `PFAInitializationException` (titus/errors.py). -/
def initErr : Err := .py "PFAInitializationException"

/-- `int(out)` for a JSON value: strings are parsed, numbers truncated, the rest refused.  The
`ValueError`s (a string that is no numeral, NaN) are turned into initialization exceptions by `longOpt`
(options.py 36-41); `OverflowError` and `TypeError` are not. -/
def pyIntOf : Val → Res Int
  | .int i => .ok i
  | .bool b => .ok (if b then 1 else 0)
  | .flt (.fin q) => .ok (Arith.trunc q)
  | .flt .nan => .error initErr
  | .flt _ => .error (.py "OverflowError")
  | .str s => match Lib.Num.pyInt 10 s.toList with
    | some i => .ok i
    | none => .error initErr
  | _ => .error (.py "TypeError")

/-- The merged options (lines 32-34). -/
def combine (requested host : Option (PyDict String Val)) : PyDict String Val :=
  (requested.getD []).update (host.getD [])

/-- `longOpt(name, default)` (36-41) -/
def longOpt (d : PyDict String Val) (name : String) (default : Int) : Res Int :=
  match d.get? name with
  | some v => pyIntOf v
  | none => .ok default

/-- The fields of EngineOptions. -/
structure Options where
  timeout : Int
  timeoutBegin : Int
  timeoutAction : Int
  timeoutEnd : Int
deriving DecidableEq

/-- The constructor (24-46); all four fields read the key "timeout". -/
def Options.new (requested host : Option (PyDict String Val)) : Res Options :=
  let d := combine requested host
  match longOpt d "timeout" (-1) with
  | .error e => .error e
  | .ok t => match longOpt d "timeout" t with
    | .error e => .error e
    | .ok b => match longOpt d "timeout" t with
      | .error e => .error e
      | .ok a => match longOpt d "timeout" t with
        | .error e => .error e
        | .ok z => .ok ⟨t, b, a, z⟩

/-! ## Specification and theorems -/

/-- The value in force for a key: the host's, else the document's. -/
def Given (requested host : Option (PyDict String Val)) (k : String) : Option Val :=
  match host.bind (·.get? k) with
  | some v => some v
  | none => requested.bind (·.get? k)

/-- Adding all pairs of a dictionary with distinct keys overrides exactly those keys. -/
theorem get?_update (d e : PyDict String Val) (he : e.WF) (k : String) :
    (d.update e).get? k = match e.get? k with | some v => some v | none => d.get? k := by
  unfold PyDict.update
  induction e generalizing d with
  | nil => simp [PyDict.get?]
  | cons p e ih =>
    obtain ⟨k', v⟩ := p
    have hk : k' ∉ PyDict.keys e ∧ PyDict.WF e := by
      simpa [PyDict.WF, PyDict.keys, List.nodup_cons] using he
    rw [List.foldl_cons, ih _ hk.2, PyDict.get?_cons]
    by_cases h : k' = k
    · subst h
      rw [(PyDict.get?_eq_none_iff e k').2 hk.1]
      simp [PyDict.get?_set]
    · simp [PyDict.get?_set, h]

/-- C41: the host value is used if given, else the document value. -/
theorem combine_given (requested host : Option (PyDict String Val)) (hh : ∀ d, host = some d → d.WF) (k : String) :
    (combine requested host).get? k = Given requested host k := by
  unfold combine Given
  rw [get?_update _ _ (by cases host with | none => simp [PyDict.WF, PyDict.keys] | some d => exact hh d rfl)]
  cases host <;> cases requested <;> simp [PyDict.get?]

/-- The specification of one option: the value given, as an integer, else the default. -/
def Selects (requested host : Option (PyDict String Val)) (k : String) (default : Int) (r : Res Int) : Prop :=
  (Given requested host k = none ∧ r = .ok default) ∨ ∃ v, Given requested host k = some v ∧ r = pyIntOf v

/-- C41: reading one option selects the host value, else the document value, else the default. -/
theorem longOpt_selects (requested host : Option (PyDict String Val)) (hh : ∀ d, host = some d → d.WF)
    (k : String) (default : Int) : Selects requested host k default (longOpt (combine requested host) k default) := by
  unfold longOpt
  rw [combine_given _ _ hh]
  cases h : Given requested host k with
  | none => exact .inl ⟨h, rfl⟩
  | some v => exact .inr ⟨v, h, rfl⟩

/-- C41 in full: `timeout` selects the general timeout (default -1) and `timeout.begin`,
`timeout.action` and `timeout.end` select those of the phases (default: the general timeout).
The code fails this, see `options_violation`. -/
def OptionsSpec : Prop := ∀ requested host, (∀ d, host = some d → PyDict.WF d) → ∀ o, Options.new requested host = .ok o →
  Selects requested host "timeout" (-1) (.ok o.timeout) ∧
  Selects requested host "timeout.begin" o.timeout (.ok o.timeoutBegin) ∧
  Selects requested host "timeout.action" o.timeout (.ok o.timeoutAction) ∧
  Selects requested host "timeout.end" o.timeout (.ok o.timeoutEnd)

/-- C41, partial: all fields are the general timeout.  So the statement holds exactly when no timeout is
given for a phase, or the given one equals the general timeout. -/
theorem options_partial (requested host : Option (PyDict String Val)) (hh : ∀ d, host = some d → d.WF) (o : Options)
    (h : Options.new requested host = .ok o) :
    Selects requested host "timeout" (-1) (.ok o.timeout) ∧
    o.timeoutBegin = o.timeout ∧ o.timeoutAction = o.timeout ∧ o.timeoutEnd = o.timeout ∧
    (Given requested host "timeout.begin" = none → Selects requested host "timeout.begin" o.timeout (.ok o.timeoutBegin)) ∧
    (Given requested host "timeout.action" = none → Selects requested host "timeout.action" o.timeout (.ok o.timeoutAction)) ∧
    (Given requested host "timeout.end" = none → Selects requested host "timeout.end" o.timeout (.ok o.timeoutEnd)) := by
  have hs := longOpt_selects requested host hh "timeout" (-1)
  unfold Options.new at h
  cases h1 : longOpt (combine requested host) "timeout" (-1) with
  | error e => simp [h1] at h
  | ok t =>
    have h2 : longOpt (combine requested host) "timeout" t = .ok t := by
      unfold longOpt at h1 ⊢
      cases hg : (combine requested host).get? "timeout" with
      | none => rfl
      | some v => rw [hg] at h1; exact h1
    simp only [h1, h2] at h
    cases h
    rw [h1] at hs
    exact ⟨hs, rfl, rfl, rfl, fun h => .inl ⟨h, rfl⟩, fun h => .inl ⟨h, rfl⟩, fun h => .inl ⟨h, rfl⟩⟩

/-- C41: the construction succeeds exactly when the timeout, if given, is an integral value; the errors
are those of the conversion. -/
theorem options_ok_iff (requested host : Option (PyDict String Val)) (hh : ∀ d, host = some d → d.WF) :
    ((∃ o, Options.new requested host = .ok o) ↔ ∀ v, Given requested host "timeout" = some v → ∃ i, pyIntOf v = .ok i) ∧
    ∀ e, Options.new requested host = .error e ↔ ∃ v, Given requested host "timeout" = some v ∧ pyIntOf v = .error e := by
  unfold Options.new longOpt
  simp only [combine_given _ _ hh]
  cases hg : Given requested host "timeout" with
  | none => simp
  | some v => cases hv : pyIntOf v <;> simp [hv]

/-- A timeout given for the action has no effect. -/
theorem options_violation : ¬ OptionsSpec := by
  intro h
  have := (h (some [("timeout.action", .int 1000)]) none (by simp) ⟨-1, -1, -1, -1⟩ (by decide +kernel)).2.2.1
  rcases this with ⟨h, _⟩ | ⟨v, h, h'⟩
  · exact absurd h (by decide +kernel)
  · have : Given (some [("timeout.action", Val.int 1000)]) none "timeout.action" = some (.int 1000) := by decide +kernel
    rw [this] at h; cases h; exact absurd h' (by decide)

/-- Values that cannot be converted: some escape as other Python errors. -/
theorem options_errors :
    Options.new none (some [("timeout", .str "soon")]) = .error (.py "PFAInitializationException") ∧
    Options.new none (some [("timeout", .null)]) = .error (.py "TypeError") ∧
    Options.new none (some [("timeout", .flt .pinf)]) = .error (.py "OverflowError") := by
  refine ⟨by decide +kernel, by decide +kernel, by decide +kernel⟩

example : Options.new (some [("timeout", .int 5), ("x", .null)]) (some [("timeout", .str " 7 ")]) = .ok ⟨7, 7, 7, 7⟩ := by
  decide +kernel

end Verif.Sig
