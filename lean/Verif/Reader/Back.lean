import Verif.Reader.Node

/-!
# What the reader returns

Everything the reader returns satisfies the conditions of `read_node`, except that a LiteralInt may hold a number that is out of
range or a boolean (`Back`, `read_back`).  So reading, printing and reading again gives the same expression as reading
once, under that one condition (`read_print_read`).
-/

namespace Verif.Reader
open Avro Ast

/-- `plain`, without the condition for LiteralInt. -/
def back : X → Bool
  | .litInt _ => true
  | e => plain e

/-- Every node of the expression could be constructed and satisfies `back`. -/
def Back (e : X) : Prop := ∀ x, Part x e → made x = true ∧ back x = true

theorem Back.intro {e : X} (h1 : made e = true) (h2 : back e = true) (hc : ∀ c, Child c e → Back c) : Back e := by
  intro x hx
  cases hx with
  | refl => exact ⟨h1, h2⟩
  | step hx hy => exact hc _ hy x hx

/-- The reader's results come from constructors. -/
theorem mk_ok {e e' : X} (h : mk e = .ok e') : made e = true ∧ e' = e := by
  unfold mk at h
  by_cases hm : made e = true
  · rw [if_pos hm] at h; exact ⟨hm, by injection h with h; exact h.symm⟩
  · rw [if_neg hm] at h; cases h

theorem mkElse_ok {l : List X} {e e' : X} (h : mkElse l e = .ok e') : made e = true ∧ e' = e := by
  unfold mkElse at h
  by_cases hl : l.isEmpty = true
  · rw [if_pos hl] at h; cases h
  · rw [if_neg hl] at h; exact mk_ok h

/-! ## Removing position marks twice -/

mutual
theorem strip_strip : ∀ v : Val, strip (strip v) = strip v
  | .dict d => by simp only [strip]; rw [stripD_stripD d]
  | .arr xs => by simp only [strip]; rw [stripL_stripL xs]
  | .null | .bool _ | .int _ | .flt _ | .str _ | .bytes _ => rfl
theorem stripL_stripL : ∀ xs : List Val, stripL (stripL xs) = stripL xs
  | [] => rfl
  | x :: xs => by simp only [stripL]; rw [strip_strip x, stripL_stripL xs]
theorem stripD_stripD : ∀ d : List (String × Val), stripD (stripD d) = stripD d
  | [] => rfl
  | (k, v) :: d => by
    by_cases hk : k = "@"
    · simp only [stripD, if_pos hk]; exact stripD_stripD d
    · simp only [stripD, if_neg hk]; rw [strip_strip v, stripD_stripD d]
end

/-! ## Results of the functions for values -/

theorem app_ok_iff {α β : Type} {f : α → β} {r : Res α} {b : β} (h : Res.app f r = .ok b) : ∃ a, r = .ok a ∧ b = f a := by
  cases r with
  | error e => cases h
  | ok a => injection h with h; exact ⟨a, rfl, h.symm⟩

theorem mapR_ok {α β : Type} {f : α → Res β} {P : β → Prop} : ∀ {xs : List α} {ys : List β}, mapR f xs = .ok ys →
    (∀ x ∈ xs, ∀ y, f x = .ok y → P y) → ∀ y ∈ ys, P y
  | [], ys, h, _ => by injection h with h; subst h; simp
  | x :: xs, ys, h, hP => by
    simp only [mapR] at h
    cases hx : f x with
    | error e => rw [hx] at h; cases h
    | ok y =>
      rw [hx] at h
      cases hxs : mapR f xs with
      | error e => rw [hxs] at h; cases h
      | ok ys' =>
        rw [hxs] at h; injection h with h; subst h
        intro z hz
        rcases List.mem_cons.1 hz with rfl | hz
        · exact hP x List.mem_cons_self _ hx
        · exact mapR_ok hxs (fun x hx => hP x (List.mem_cons_of_mem _ hx)) z hz

theorem keys_ne {α : Type} {m : List (String × α)} (h : ∀ kv ∈ m, kv.1 ≠ "@") : "@" ∉ PyDict.keys m := by
  intro hk
  rcases List.mem_map.1 hk with ⟨kv, hm, e⟩
  exact h kv hm e

theorem readMap_ok {α : Type} {f : Val → Res α} {P : α → Prop} {v : Val} {m : List (String × α)} (h : readMap f v = .ok m)
    (hP : ∀ v a, f v = .ok a → P a) : ∀ kv ∈ m, kv.1 ≠ "@" ∧ P kv.2 := by
  cases v <;> first | (cases h; done) | skip
  refine mapR_ok h (fun kv hkv y hy => ?_)
  obtain ⟨a, ha, rfl⟩ := app_ok_iff hy
  exact ⟨by simpa using (List.mem_filter.1 hkv).2, hP _ _ ha⟩

theorem readList_ok {α : Type} {f : Val → Res α} {P : α → Prop} {v : Val} {m : List α} (h : readList f v = .ok m)
    (hP : ∀ v a, f v = .ok a → P a) : ∀ x ∈ m, P x := by
  cases v <;> first | (cases h; done) | skip
  exact mapR_ok h (fun x _ y hy => hP x y hy)

theorem readPairs_ok {α : Type} {f : Val → Res α} {P : α → Prop} {v : Val} {m : List (String × α)} (h : readPairs f v = .ok m)
    (hP : ∀ v a, f v = .ok a → P a) : ∀ kv ∈ m, kv.1 ≠ "@" ∧ P kv.2 := by
  refine readList_ok h (fun v kv hv => ?_)
  unfold readPair at hv
  cases hr : readMap f v with
  | error e => rw [hr] at hv; cases hv
  | ok m =>
    rw [hr] at hv
    have := readMap_ok hr hP
    match m, hv, this with
    | [kv'], hv, this => injection hv with hv; subst hv; exact this _ List.mem_cons_self
    | [], hv, _ => cases hv
    | _ :: _ :: _, hv, _ => cases hv

section
variable {rec : Val → Res X} (ih : ∀ v e, rec v = .ok e → isArg e = true ∧ Back e)
include ih

theorem readExpr_ok {v : Val} {e : X} (h : readExpr rec v = .ok e) : Back e := by
  unfold readExpr at h
  cases hr : rec v with
  | error e => rw [hr] at h; cases h
  | ok e' =>
    rw [hr] at h
    by_cases hx : isExpr e' = true
    · simp only [hx, if_true] at h; injection h with h; subst h; exact (ih _ _ hr).2
    · simp only [hx] at h; cases h

theorem readBody_ok {v : Val} {l : List X} (h : readBody rec v = .ok l) : ∀ x ∈ l, Back x := by
  have one : ∀ v, Res.app (fun e => [e]) (readExpr rec v) = .ok l → ∀ x ∈ l, Back x := by
    intro v h x hx
    obtain ⟨a, ha, rfl⟩ := app_ok_iff h
    rw [List.mem_singleton.1 hx]; exact readExpr_ok ih ha
  cases v with
  | arr xs => exact mapR_ok h (fun x _ y hy => readExpr_ok ih hy)
  | _ => exact one _ h

theorem readCase_ok {v : Val} {e : X} (h : readCase rec v = .ok e) : Back e := by
  cases v with
  | dict d =>
    simp only [readCase] at h
    by_cases hk : ((entries d).all fun kv => decide (kv.1 ∈ ["as", "named", "do"])) = true
    · rw [if_pos hk] at h
      cases hb0 : PyDict.get? (entries d) "do" with
      | none =>
        cases hn0 : PyDict.get? (entries d) "named" with
        | none => simp [hb0, hn0] at h
        | some n =>
          cases hn : readString n with
          | error => simp [hb0, hn0, hn] at h
          | ok n' => by_cases hv : validSymbol n' = true <;> simp [hb0, hn0, hn, hv] at h
      | some b =>
        cases hb : readBody rec b with
        | error =>
          cases hn0 : PyDict.get? (entries d) "named" with
          | none => simp [hb0, hn0, hb] at h
          | some n => cases hn : readString n <;> simp [hb0, hn0, hn, hb] at h
        | ok b' =>
          cases hn0 : PyDict.get? (entries d) "named" with
          | none => simp [hb0, hn0, hb] at h
          | some n =>
            cases hn : readString n with
            | error => simp [hb0, hn0, hn, hb] at h
            | ok n' =>
              by_cases hv : validSymbol n' = true
              · cases ht : PyDict.get? (entries d) "as" with
                | none => simp [hb0, hn0, hn, hb, hv, ht] at h
                | some t =>
                  simp only [hb0, hn0, hn, hb, hv, ht, Option.map_some, Bool.not_true, Bool.false_eq_true, if_false] at h
                  obtain ⟨hm, rfl⟩ := mk_ok h
                  refine Back.intro hm (by simp [back, plain, hv, strip_strip]) ?_
                  intro c hc
                  cases hc with
                  | castCase hx => exact readBody_ok ih hb _ hx
              · simp [hb0, hn0, hn, hb, hv] at h
    · rw [if_neg hk] at h; cases h
  | _ => cases h

end

/-! ## Values of keys -/

/-- What is known of the value of a key. -/
def Good (k : Kind) (s : Slot) : Prop := match s with
  | .val v => (k = .int → plain (.litInt v) = true ∨ ∃ b, v = .bool b) ∧ (k = .long → plain (.litLong v) = true) ∧
      (k = .float → plain (.litFloat v) = true) ∧ (k = .json → strip v = v)
  | .ty t => strip t = t
  | .bytes b => ∀ x ∈ b, x < 256
  | .emap m => "@" ∉ PyDict.keys m ∧ ∀ k x, (k, x) ∈ m → Back x
  | .newObj m => "@" ∉ PyDict.keys m ∧ ∀ k x, (k, x) ∈ m → Back x
  | .elist l => (∀ x ∈ l, Back x) ∧ (k = .cond → elseLess l = .ok ())
  | .newArr l => ∀ x ∈ l, Back x
  | .expr e => Back e
  | .params ps => ∀ p ∈ ps, validSymbol p.1 = true ∧ strip p.2 = p.2
  | .format f => "@" ∉ PyDict.keys f
  | .str _ | .bool _ | .filter _ => True

theorem readInt_ok {b : Int} {v w : Val} (h : readInt b v = .ok w) : (∃ i, w = .int i ∧ -b ≤ i ∧ i ≤ b - 1) ∨ ∃ c, w = .bool c := by
  cases v <;> first | (cases h; done) | skip
  · injection h with h; exact .inr ⟨_, h.symm⟩
  · rename_i i
    simp only [readInt] at h
    by_cases hi : -b ≤ i ∧ i ≤ b - 1
    · rw [if_pos hi] at h; injection h with h; exact .inl ⟨i, h.symm, hi⟩
    · rw [if_neg hi] at h; cases h

theorem readFloat_ok {v w : Val} (h : readFloat v = .ok w) : ∃ f, w = .flt f := by
  cases v <;> first | (cases h; done) | skip
  · injection h with h; exact ⟨_, h.symm⟩
  · obtain ⟨a, _, e⟩ := app_ok_iff h; exact ⟨a, e⟩
  · injection h with h; exact ⟨_, h.symm⟩

theorem readParam_ok {v : Val} {p : String × Val} (h : readParam v = .ok p) : validSymbol p.1 = true ∧ strip p.2 = p.2 := by
  cases v <;> first | (cases h; done) | skip
  simp only [readParam] at h
  split at h
  · rename_i n t _
    by_cases hv : validSymbol n = true
    · rw [if_pos hv] at h; injection h with h; subst h; exact ⟨hv, strip_strip t⟩
    · rw [if_neg hv] at h; cases h
  · cases h

theorem emap_good {m : List (String × X)} (h : ∀ kv ∈ m, kv.1 ≠ "@" ∧ Back kv.2) : "@" ∉ PyDict.keys m ∧ ∀ k x, (k, x) ∈ m → Back x :=
  ⟨keys_ne (fun kv hm => (h kv hm).1), fun k x hm => (h (k, x) hm).2⟩

theorem readKind_good {rec : Val → Res X} (ih : ∀ v e, rec v = .ok e → isArg e = true ∧ Back e) {k : Kind} {v : Val} {s : Slot}
    (h : readKind rec k v = .ok s) : Good k s := by
  cases k <;> simp only [readKind] at h
  case int =>
    obtain ⟨w, hw, rfl⟩ := app_ok_iff h
    rcases readInt_ok hw with ⟨i, rfl, hi⟩ | ⟨c, rfl⟩
    · simp [Good, plain]; omega
    · simp [Good]
  case long =>
    obtain ⟨w, hw, rfl⟩ := app_ok_iff h
    rcases readInt_ok hw with ⟨i, rfl, hi⟩ | ⟨c, rfl⟩
    · simp [Good, plain]; omega
    · simp [Good, plain]
  case float =>
    obtain ⟨w, hw, rfl⟩ := app_ok_iff h
    obtain ⟨f, rfl⟩ := readFloat_ok hw
    simp [Good, plain]
  case string => obtain ⟨w, hw, rfl⟩ := app_ok_iff h; trivial
  case base64 =>
    obtain ⟨w, hw, rfl⟩ := app_ok_iff h
    cases v <;> first | (cases hw; done) | skip
    exact b64decode_lt hw
  case type => injection h with h; subst h; exact strip_strip v
  case json => injection h with h; subst h; simp [Good, strip_strip]
  case emap => obtain ⟨w, hw, rfl⟩ := app_ok_iff h; exact emap_good (readMap_ok hw (fun v a ha => readExpr_ok ih ha))
  case body => obtain ⟨w, hw, rfl⟩ := app_ok_iff h; exact ⟨readBody_ok ih hw, by simp⟩
  case elist => obtain ⟨w, hw, rfl⟩ := app_ok_iff h; exact ⟨readList_ok hw (fun v a ha => readExpr_ok ih ha), by simp⟩
  case expr => obtain ⟨w, hw, rfl⟩ := app_ok_iff h; exact readExpr_ok ih hw
  case cond =>
    cases hl : readList (readExpr rec) v with
    | error e => rw [hl] at h; cases h
    | ok l =>
      rw [hl] at h
      obtain ⟨w, hw, rfl⟩ := app_ok_iff h
      exact ⟨readList_ok hl (fun v a ha => readExpr_ok ih ha), fun _ => hw⟩
  case cases => obtain ⟨w, hw, rfl⟩ := app_ok_iff h; exact ⟨readList_ok hw (fun v a ha => readCase_ok ih ha), by simp⟩
  case bool => obtain ⟨w, hw, rfl⟩ := app_ok_iff h; trivial
  case new =>
    cases v <;> simp only [readKind] at h <;> first | (cases h; done) | skip
    · obtain ⟨w, hw, rfl⟩ := app_ok_iff h; exact readList_ok hw (fun v a ha => readExpr_ok ih ha)
    · obtain ⟨w, hw, rfl⟩ := app_ok_iff h; exact emap_good (readMap_ok hw (fun v a ha => readExpr_ok ih ha))
  case params => obtain ⟨w, hw, rfl⟩ := app_ok_iff h; exact readList_ok hw (fun v a ha => readParam_ok ha)
  case arg => obtain ⟨w, hw, rfl⟩ := app_ok_iff h; exact (ih _ _ hw).2
  case amap => obtain ⟨w, hw, rfl⟩ := app_ok_iff h; exact emap_good (readMap_ok hw (fun v a ha => (ih _ _ ha).2))
  case filter => obtain ⟨w, hw, rfl⟩ := app_ok_iff h; trivial
  case format =>
    obtain ⟨w, hw, rfl⟩ := app_ok_iff h
    exact keys_ne (fun kv hm => (readPairs_ok (P := fun _ => True) hw (fun _ _ _ => trivial) kv hm).1)
  case pack => obtain ⟨w, hw, rfl⟩ := app_ok_iff h; exact emap_good (readPairs_ok hw (fun v a ha => readExpr_ok ih ha))
  case args =>
    have one : ∀ v, Res.app (fun e => Slot.elist [e]) (rec v) = .ok s → Good .args s := by
      intro v h
      obtain ⟨w, hw, rfl⟩ := app_ok_iff h
      exact ⟨fun x hx => by rw [List.mem_singleton.1 hx]; exact (ih _ _ hw).2, by simp⟩
    cases v with
    | arr xs => obtain ⟨w, hw, rfl⟩ := app_ok_iff h; exact ⟨mapR_ok hw (fun x _ y hy => (ih _ _ hy).2), by simp⟩
    | _ => exact one _ h

/-! ## Assembling -/

/-- What is known of all keys. -/
def GoodS (ss : List (String × Slot)) : Prop := ∀ k s, PyDict.get? ss k = some s → Good (kindOf k) s

theorem get?_mem {α : Type} {d : List (String × α)} {k : String} {a : α} (h : PyDict.get? d k = some a) : (k, a) ∈ d := by
  induction d with
  | nil => cases h
  | cons kv d ih =>
    obtain ⟨k', a'⟩ := kv
    simp only [PyDict.get?] at h
    by_cases hk : k' = k
    · rw [if_pos hk] at h; injection h with h; subst hk; subst h; exact List.mem_cons_self
    · rw [if_neg hk] at h; exact List.mem_cons_of_mem _ (ih h)

theorem readSlots_good {rec : Val → Res X} (ih : ∀ v e, rec v = .ok e → isArg e = true ∧ Back e) {d : List (String × Val)}
    {ss : List (String × Slot)} (h : readSlots rec d = .ok ss) : GoodS ss := by
  intro k s hs
  exact mapR_ok (P := fun kv => Good (kindOf kv.1) kv.2) h (fun kv _ y hy => by
    obtain ⟨w, hw, rfl⟩ := app_ok_iff hy
    exact readKind_good ih hw) _ (get?_mem hs)

section
variable {ss : List (String × Slot)} {k : String} {e : X}

theorem slot_ok {α : Type} {get : Slot → Option α} {f : α → Res X} (h : slot ss get k f = .ok e) :
    ∃ s a, PyDict.get? ss k = some s ∧ get s = some a ∧ f a = .ok e := by
  unfold slot at h
  cases hs : PyDict.get? ss k with
  | none => rw [hs] at h; cases h
  | some s =>
    rw [hs] at h
    cases ha : get s with
    | none => simp [ha] at h
    | some a => simp only [Option.bind_some, ha] at h; exact ⟨s, a, rfl, ha, h⟩

theorem slot_str {f : String → Res X} (h : slot ss Slot.str? k f = .ok e) : ∃ s, PyDict.get? ss k = some (.str s) ∧ f s = .ok e := by
  obtain ⟨s, a, hs, ha, h⟩ := slot_ok h
  cases s <;> simp only [Slot.str?, Option.some.injEq, reduceCtorEq] at ha
  subst ha; exact ⟨_, hs, h⟩

theorem slot_bool {f : Bool → Res X} (h : slot ss Slot.bool? k f = .ok e) : ∃ s, PyDict.get? ss k = some (.bool s) ∧ f s = .ok e := by
  obtain ⟨s, a, hs, ha, h⟩ := slot_ok h
  cases s <;> simp only [Slot.bool?, Option.some.injEq, reduceCtorEq] at ha
  subst ha; exact ⟨_, hs, h⟩

theorem slot_filter {f : List Val → Res X} (h : slot ss Slot.filter? k f = .ok e) : ∃ s, PyDict.get? ss k = some (.filter s) ∧ f s = .ok e := by
  obtain ⟨s, a, hs, ha, h⟩ := slot_ok h
  cases s <;> simp only [Slot.filter?, Option.some.injEq, reduceCtorEq] at ha
  subst ha; exact ⟨_, hs, h⟩

variable (hg : GoodS ss)
include hg

theorem slot_val {f : Val → Res X} (h : slot ss Slot.val? k f = .ok e) : ∃ v, Good (kindOf k) (.val v) ∧ f v = .ok e := by
  obtain ⟨s, a, hs, ha, h⟩ := slot_ok h
  have := hg _ _ hs
  cases s <;> simp only [Slot.val?, Option.some.injEq, reduceCtorEq] at ha
  subst ha; exact ⟨_, this, h⟩

theorem slot_code {f : Option Int → Res X} (h : slot ss Slot.code? k f = .ok e) :
    ∃ c, (∀ i, c = some i → Good (kindOf k) (.val (.int i))) ∧ f c = .ok e := by
  obtain ⟨s, a, hs, ha, h⟩ := slot_ok h
  have := hg _ _ hs
  cases s <;> simp only [Slot.code?, reduceCtorEq] at ha
  rename_i v
  cases v <;> simp only [Slot.code?, Option.some.injEq, reduceCtorEq] at ha
  · subst ha; exact ⟨_, by simp, h⟩
  · subst ha; exact ⟨_, fun i hi => by injection hi with hi; subst hi; exact this, h⟩

theorem slot_bytes {f : List Nat → Res X} (h : slot ss Slot.bytes? k f = .ok e) : ∃ b, (∀ x ∈ b, x < 256) ∧ f b = .ok e := by
  obtain ⟨s, a, hs, ha, h⟩ := slot_ok h
  have := hg _ _ hs
  cases s <;> simp only [Slot.bytes?, Option.some.injEq, reduceCtorEq] at ha
  subst ha; exact ⟨_, this, h⟩

theorem slot_ty {f : Val → Res X} (h : slot ss Slot.ty? k f = .ok e) : ∃ t, strip t = t ∧ f t = .ok e := by
  obtain ⟨s, a, hs, ha, h⟩ := slot_ok h
  have := hg _ _ hs
  cases s <;> simp only [Slot.ty?, Option.some.injEq, reduceCtorEq] at ha
  subst ha; exact ⟨_, this, h⟩

theorem slot_emap {f : List (String × X) → Res X} (h : slot ss Slot.emap? k f = .ok e) :
    ∃ m, ("@" ∉ PyDict.keys m ∧ ∀ k x, (k, x) ∈ m → Back x) ∧ f m = .ok e := by
  obtain ⟨s, a, hs, ha, h⟩ := slot_ok h
  have := hg _ _ hs
  cases s <;> simp only [Slot.emap?, Option.some.injEq, reduceCtorEq] at ha
  subst ha; exact ⟨_, this, h⟩

theorem slot_elist {f : List X → Res X} (h : slot ss Slot.elist? k f = .ok e) :
    ∃ l, ((∀ x ∈ l, Back x) ∧ (kindOf k = .cond → elseLess l = .ok ())) ∧ f l = .ok e := by
  obtain ⟨s, a, hs, ha, h⟩ := slot_ok h
  have := hg _ _ hs
  cases s <;> simp only [Slot.elist?, Option.some.injEq, reduceCtorEq] at ha
  subst ha; exact ⟨_, this, h⟩

theorem slot_expr {f : X → Res X} (h : slot ss Slot.expr? k f = .ok e) : ∃ x, Back x ∧ f x = .ok e := by
  obtain ⟨s, a, hs, ha, h⟩ := slot_ok h
  have := hg _ _ hs
  cases s <;> simp only [Slot.expr?, Option.some.injEq, reduceCtorEq] at ha
  subst ha; exact ⟨_, this, h⟩

theorem slot_params {f : List (String × Val) → Res X} (h : slot ss Slot.params? k f = .ok e) :
    ∃ ps, (∀ p ∈ ps, validSymbol p.1 = true ∧ strip p.2 = p.2) ∧ f ps = .ok e := by
  obtain ⟨s, a, hs, ha, h⟩ := slot_ok h
  have := hg _ _ hs
  cases s <;> simp only [Slot.params?, Option.some.injEq, reduceCtorEq] at ha
  subst ha; exact ⟨_, this, h⟩

theorem slot_format {f : List (String × String) → Res X} (h : slot ss Slot.format? k f = .ok e) :
    ∃ m, "@" ∉ PyDict.keys m ∧ f m = .ok e := by
  obtain ⟨s, a, hs, ha, h⟩ := slot_ok h
  have := hg _ _ hs
  cases s <;> simp only [Slot.format?, Option.some.injEq, reduceCtorEq] at ha
  subst ha; exact ⟨_, this, h⟩

theorem slot_new {f : List (String × X) ⊕ List X → Res X} (h : slot ss Slot.new? k f = .ok e) :
    (∃ m, ("@" ∉ PyDict.keys m ∧ ∀ k x, (k, x) ∈ m → Back x) ∧ f (.inl m) = .ok e) ∨ ∃ l, (∀ x ∈ l, Back x) ∧ f (.inr l) = .ok e := by
  obtain ⟨s, a, hs, ha, h⟩ := slot_ok h
  have := hg _ _ hs
  cases s <;> simp only [Slot.new?, Option.some.injEq, reduceCtorEq] at ha
  · subst ha; exact .inl ⟨_, this, h⟩
  · subst ha; exact .inr ⟨_, this, h⟩
end

theorem elseLess_back {its : List X} (h : elseLess its = .ok ()) (hm : its.all isIf = true) :
    (its.all (fun x => match x with | .if_ _ _ e => e.isEmpty | _ => false)) = true := by
  induction its with
  | nil => rfl
  | cons x xs ih =>
    simp only [List.all_cons, Bool.and_eq_true] at hm ⊢
    cases x <;> simp only [isIf, Bool.false_eq_true, false_and] at hm
    rename_i e
    simp only [elseLess] at h
    by_cases he : e.isEmpty = true
    · rw [if_pos he] at h; exact ⟨he, ih h hm.2⟩
    · rw [if_neg he] at h; cases h

theorem wrongName_ok {ss : List (String × Slot)} {ok : String → Bool} {k s : String} (h : wrongName ss ok k = false)
    (hs : PyDict.get? ss k = some (.str s)) : ok s = true := by
  simpa [wrongName, hs, Slot.str?] using h

theorem build_back {ss : List (String × Slot)} (hg : GoodS ss) (h1 : wrongName ss validSymbol "foreach" = false)
    (h2 : wrongName ss validSymbol "forkey" = false) (h3 : wrongName ss validSymbol "forval" = false)
    (h4 : wrongName ss validFunction "fcn" = false) {f : Form} {e : X} (h : build ss f = .ok e) : isArg e = true ∧ Back e := by
  cases f <;> simp only [build] at h
  case new =>
    obtain ⟨t, ht, h⟩ := slot_ty hg h
    rcases slot_new hg h with ⟨m, hm, h⟩ | ⟨l, hl, h⟩
    · obtain ⟨hm', rfl⟩ := mk_ok h
      refine ⟨rfl, Back.intro hm' (by simp_all [back, plain]) ?_⟩
      intro c hc; cases hc; exact hm.2 _ _ ‹_›
    · obtain ⟨hm', rfl⟩ := mk_ok h
      refine ⟨rfl, Back.intro hm' (by simp_all [back, plain]) ?_⟩
      intro c hc; cases hc; exact hl _ ‹_›
  case errorCode =>
    obtain ⟨s, hs, h⟩ := slot_str h
    obtain ⟨c, hc, h⟩ := slot_code hg h
    cases c with
    | none => cases h
    | some i =>
      obtain ⟨hm', rfl⟩ := mk_ok h
      have := (hc i rfl).1 (by simp)
      refine ⟨rfl, Back.intro hm' ?_ ?_⟩
      · simp [plain] at this; simp [back, plain]; omega
      · intro c hc; cases hc
  case int =>
    obtain ⟨wv, fv, h⟩ := slot_val hg h
    obtain ⟨hm, rfl⟩ := mk_ok h
    refine ⟨rfl, Back.intro hm (rfl) ?_⟩
    intro c hc; cases hc
  case long =>
    obtain ⟨wv, fv, h⟩ := slot_val hg h
    obtain ⟨hm, rfl⟩ := mk_ok h
    refine ⟨rfl, Back.intro hm (fv.2.1 (by simp)) ?_⟩
    intro c hc; cases hc
  case float =>
    obtain ⟨wv, fv, h⟩ := slot_val hg h
    obtain ⟨hm, rfl⟩ := mk_ok h
    refine ⟨rfl, Back.intro hm (fv.2.2.1 (by simp)) ?_⟩
    intro c hc; cases hc
  case double =>
    obtain ⟨wv, fv, h⟩ := slot_val hg h
    obtain ⟨hm, rfl⟩ := mk_ok h
    refine ⟨rfl, Back.intro hm (by have := fv.2.2.1 (by simp); cases wv <;> simp_all [back, plain]) ?_⟩
    intro c hc; cases hc
  case string =>
    obtain ⟨ws, fs, h⟩ := slot_str h
    obtain ⟨hm, rfl⟩ := mk_ok h
    refine ⟨rfl, Back.intro hm (rfl) ?_⟩
    intro c hc; cases hc
  case base64 =>
    obtain ⟨wb, fb, h⟩ := slot_bytes hg h
    obtain ⟨hm, rfl⟩ := mk_ok h
    refine ⟨rfl, Back.intro hm (by simpa [back, plain] using fb) ?_⟩
    intro c hc; cases hc
  case literal =>
    obtain ⟨wt, ft, h⟩ := slot_ty hg h
    obtain ⟨wv, fv, h⟩ := slot_val hg h
    obtain ⟨hm, rfl⟩ := mk_ok h
    refine ⟨rfl, Back.intro hm (by simp [back, plain, ft, fv.2.2.2 (by simp)]) ?_⟩
    intro c hc; cases hc
  case do_ =>
    obtain ⟨wb, ⟨fb, fbc⟩, h⟩ := slot_elist hg h
    obtain ⟨hm, rfl⟩ := mk_ok h
    refine ⟨rfl, Back.intro hm (rfl) ?_⟩
    intro c hc; cases hc <;> first | exact fb _ ‹_› | (cases ‹_ ∈ []›; done)
  case let_ =>
    obtain ⟨wm, ⟨fmk, fm⟩, h⟩ := slot_emap hg h
    obtain ⟨hm, rfl⟩ := mk_ok h
    refine ⟨rfl, Back.intro hm (by simp [back, plain, fmk]) ?_⟩
    intro c hc; cases hc <;> first | exact fm _ _ ‹_› | (cases ‹_ ∈ []›; done)
  case set =>
    obtain ⟨wm, ⟨fmk, fm⟩, h⟩ := slot_emap hg h
    obtain ⟨hm, rfl⟩ := mk_ok h
    refine ⟨rfl, Back.intro hm (by simp [back, plain, fmk]) ?_⟩
    intro c hc; cases hc <;> first | exact fm _ _ ‹_› | (cases ‹_ ∈ []›; done)
  case attr =>
    obtain ⟨we, fe, h⟩ := slot_expr hg h
    obtain ⟨wp, ⟨fp, fpc⟩, h⟩ := slot_elist hg h
    obtain ⟨hm, rfl⟩ := mk_ok h
    refine ⟨rfl, Back.intro hm (rfl) ?_⟩
    intro c hc; cases hc <;> first | exact fe | exact fp _ ‹_› | (cases ‹_ ∈ []›; done)
  case attrTo =>
    obtain ⟨we, fe, h⟩ := slot_expr hg h
    obtain ⟨wp, ⟨fp, fpc⟩, h⟩ := slot_elist hg h
    obtain ⟨wr, fr, h⟩ := slot_expr hg h
    obtain ⟨hm, rfl⟩ := mk_ok h
    refine ⟨rfl, Back.intro hm (rfl) ?_⟩
    intro c hc; cases hc <;> first | exact fe | exact fp _ ‹_› | exact fr | (cases ‹_ ∈ []›; done)
  case cell =>
    obtain ⟨wc, fc, h⟩ := slot_str h
    obtain ⟨hm, rfl⟩ := mk_ok h
    refine ⟨rfl, Back.intro hm (rfl) ?_⟩
    intro c hc; cases hc; cases ‹_ ∈ []›
  case cellPath =>
    obtain ⟨wc, fc, h⟩ := slot_str h
    obtain ⟨wp, ⟨fp, fpc⟩, h⟩ := slot_elist hg h
    obtain ⟨hm, rfl⟩ := mk_ok h
    refine ⟨rfl, Back.intro hm (rfl) ?_⟩
    intro c hc; cases hc <;> first | exact fp _ ‹_› | (cases ‹_ ∈ []›; done)
  case cellTo =>
    obtain ⟨wc, fc, h⟩ := slot_str h
    obtain ⟨wr, fr, h⟩ := slot_expr hg h
    obtain ⟨hm, rfl⟩ := mk_ok h
    refine ⟨rfl, Back.intro hm (rfl) ?_⟩
    intro c hc; cases hc <;> first | exact fr | (cases ‹_ ∈ []›; done)
  case cellPathTo =>
    obtain ⟨wc, fc, h⟩ := slot_str h
    obtain ⟨wp, ⟨fp, fpc⟩, h⟩ := slot_elist hg h
    obtain ⟨wr, fr, h⟩ := slot_expr hg h
    obtain ⟨hm, rfl⟩ := mk_ok h
    refine ⟨rfl, Back.intro hm (rfl) ?_⟩
    intro c hc; cases hc <;> first | exact fp _ ‹_› | exact fr | (cases ‹_ ∈ []›; done)
  case pool =>
    obtain ⟨wc, fc, h⟩ := slot_str h
    obtain ⟨wp, ⟨fp, fpc⟩, h⟩ := slot_elist hg h
    obtain ⟨hm, rfl⟩ := mk_ok h
    refine ⟨rfl, Back.intro hm (rfl) ?_⟩
    intro c hc; cases hc <;> first | exact fp _ ‹_› | (cases ‹_ ∈ []›; done)
  case poolTo =>
    obtain ⟨wc, fc, h⟩ := slot_str h
    obtain ⟨wp, ⟨fp, fpc⟩, h⟩ := slot_elist hg h
    obtain ⟨wr, fr, h⟩ := slot_expr hg h
    obtain ⟨wi, fi, h⟩ := slot_expr hg h
    obtain ⟨hm, rfl⟩ := mk_ok h
    refine ⟨rfl, Back.intro hm (rfl) ?_⟩
    intro c hc; cases hc <;> first | exact fp _ ‹_› | exact fr | exact fi | (cases ‹_ ∈ []›; done)
  case poolDel =>
    obtain ⟨wc, fc, h⟩ := slot_str h
    obtain ⟨wd, fd, h⟩ := slot_expr hg h
    obtain ⟨hm, rfl⟩ := mk_ok h
    refine ⟨rfl, Back.intro hm (rfl) ?_⟩
    intro c hc; cases hc <;> first | exact fd | (cases ‹_ ∈ []›; done)
  case if_ =>
    obtain ⟨wp, fp, h⟩ := slot_expr hg h
    obtain ⟨wt, ⟨ft, ftc⟩, h⟩ := slot_elist hg h
    obtain ⟨hm, rfl⟩ := mk_ok h
    refine ⟨rfl, Back.intro hm (rfl) ?_⟩
    intro c hc; cases hc <;> first | exact fp | exact ft _ ‹_› | (cases ‹_ ∈ []›; done)
  case ifElse =>
    obtain ⟨wp, fp, h⟩ := slot_expr hg h
    obtain ⟨wt, ⟨ft, ftc⟩, h⟩ := slot_elist hg h
    obtain ⟨we, ⟨fe, fec⟩, h⟩ := slot_elist hg h
    obtain ⟨hm, rfl⟩ := mkElse_ok h
    refine ⟨rfl, Back.intro hm (rfl) ?_⟩
    intro c hc; cases hc <;> first | exact fp | exact ft _ ‹_› | exact fe _ ‹_› | (cases ‹_ ∈ []›; done)
  case cond =>
    obtain ⟨wl, ⟨fl, flc⟩, h⟩ := slot_elist hg h
    obtain ⟨hm, rfl⟩ := mk_ok h
    refine ⟨rfl, Back.intro hm (elseLess_back (flc (by simp)) (by simp only [made, Bool.and_eq_true] at hm; exact hm.1.1)) ?_⟩
    intro c hc; cases hc <;> first | exact fl _ ‹_› | (cases ‹_ ∈ []›; done)
  case condElse =>
    obtain ⟨wl, ⟨fl, flc⟩, h⟩ := slot_elist hg h
    obtain ⟨we, ⟨fe, fec⟩, h⟩ := slot_elist hg h
    obtain ⟨hm, rfl⟩ := mkElse_ok h
    refine ⟨rfl, Back.intro hm (elseLess_back (flc (by simp)) (by simp only [made, Bool.and_eq_true] at hm; exact hm.1.1)) ?_⟩
    intro c hc; cases hc <;> first | exact fl _ ‹_› | exact fe _ ‹_› | (cases ‹_ ∈ []›; done)
  case while_ =>
    obtain ⟨wp, fp, h⟩ := slot_expr hg h
    obtain ⟨wb, ⟨fb, fbc⟩, h⟩ := slot_elist hg h
    obtain ⟨hm, rfl⟩ := mk_ok h
    refine ⟨rfl, Back.intro hm (rfl) ?_⟩
    intro c hc; cases hc <;> first | exact fp | exact fb _ ‹_› | (cases ‹_ ∈ []›; done)
  case «until» =>
    obtain ⟨wb, ⟨fb, fbc⟩, h⟩ := slot_elist hg h
    obtain ⟨wp, fp, h⟩ := slot_expr hg h
    obtain ⟨hm, rfl⟩ := mk_ok h
    refine ⟨rfl, Back.intro hm (rfl) ?_⟩
    intro c hc; cases hc <;> first | exact fb _ ‹_› | exact fp | (cases ‹_ ∈ []›; done)
  case for_ =>
    obtain ⟨wi, ⟨fik, fi⟩, h⟩ := slot_emap hg h
    obtain ⟨wp, fp, h⟩ := slot_expr hg h
    obtain ⟨ws, ⟨fsk, fs⟩, h⟩ := slot_emap hg h
    obtain ⟨wb, ⟨fb, fbc⟩, h⟩ := slot_elist hg h
    obtain ⟨hm, rfl⟩ := mk_ok h
    refine ⟨rfl, Back.intro hm (by simp [back, plain, fik, fsk]) ?_⟩
    intro c hc; cases hc <;> first | exact fi _ _ ‹_› | exact fp | exact fs _ _ ‹_› | exact fb _ ‹_› | (cases ‹_ ∈ []›; done)
  case foreach =>
    obtain ⟨wn, fn, h⟩ := slot_str h
    obtain ⟨wa, fa, h⟩ := slot_expr hg h
    obtain ⟨wb, ⟨fb, fbc⟩, h⟩ := slot_elist hg h
    obtain ⟨hm, rfl⟩ := mk_ok h
    refine ⟨rfl, Back.intro hm (by simp [back, plain, wrongName_ok h1 fn]) ?_⟩
    intro c hc; cases hc <;> first | exact fa | exact fb _ ‹_› | (cases ‹_ ∈ []›; done)
  case foreachSeq =>
    obtain ⟨wn, fn, h⟩ := slot_str h
    obtain ⟨wa, fa, h⟩ := slot_expr hg h
    obtain ⟨wb, ⟨fb, fbc⟩, h⟩ := slot_elist hg h
    obtain ⟨wq, fq, h⟩ := slot_bool h
    obtain ⟨hm, rfl⟩ := mk_ok h
    refine ⟨rfl, Back.intro hm (by simp [back, plain, wrongName_ok h1 fn]) ?_⟩
    intro c hc; cases hc <;> first | exact fa | exact fb _ ‹_› | (cases ‹_ ∈ []›; done)
  case forkeyval =>
    obtain ⟨wk, fk, h⟩ := slot_str h
    obtain ⟨wv, fv, h⟩ := slot_str h
    obtain ⟨wm, fm, h⟩ := slot_expr hg h
    obtain ⟨wb, ⟨fb, fbc⟩, h⟩ := slot_elist hg h
    obtain ⟨hm, rfl⟩ := mk_ok h
    refine ⟨rfl, Back.intro hm (by simp [back, plain, wrongName_ok h2 fk, wrongName_ok h3 fv]) ?_⟩
    intro c hc; cases hc <;> first | exact fm | exact fb _ ‹_› | (cases ‹_ ∈ []›; done)
  case cast =>
    obtain ⟨we, fe, h⟩ := slot_expr hg h
    obtain ⟨wcs, ⟨fcs, fcsc⟩, h⟩ := slot_elist hg h
    obtain ⟨hm, rfl⟩ := mk_ok h
    refine ⟨rfl, Back.intro hm (rfl) ?_⟩
    intro c hc; cases hc <;> first | exact fe | exact fcs _ ‹_› | (cases ‹_ ∈ []›; done)
  case castPartial =>
    obtain ⟨we, fe, h⟩ := slot_expr hg h
    obtain ⟨wcs, ⟨fcs, fcsc⟩, h⟩ := slot_elist hg h
    obtain ⟨wp, fp, h⟩ := slot_bool h
    obtain ⟨hm, rfl⟩ := mk_ok h
    refine ⟨rfl, Back.intro hm (rfl) ?_⟩
    intro c hc; cases hc <;> first | exact fe | exact fcs _ ‹_› | (cases ‹_ ∈ []›; done)
  case upcast =>
    obtain ⟨we, fe, h⟩ := slot_expr hg h
    obtain ⟨wt, ft, h⟩ := slot_ty hg h
    obtain ⟨hm, rfl⟩ := mk_ok h
    refine ⟨rfl, Back.intro hm (by simp [back, plain, ft]) ?_⟩
    intro c hc; cases hc <;> first | exact fe | (cases ‹_ ∈ []›; done)
  case ifnotnull =>
    obtain ⟨wm, ⟨fmk, fm⟩, h⟩ := slot_emap hg h
    obtain ⟨wt, ⟨ft, ftc⟩, h⟩ := slot_elist hg h
    obtain ⟨hm, rfl⟩ := mk_ok h
    refine ⟨rfl, Back.intro hm (by simp [back, plain, fmk]) ?_⟩
    intro c hc; cases hc <;> first | exact fm _ _ ‹_› | exact ft _ ‹_› | (cases ‹_ ∈ []›; done)
  case ifnotnullElse =>
    obtain ⟨wm, ⟨fmk, fm⟩, h⟩ := slot_emap hg h
    obtain ⟨wt, ⟨ft, ftc⟩, h⟩ := slot_elist hg h
    obtain ⟨we, ⟨fe, fec⟩, h⟩ := slot_elist hg h
    obtain ⟨hm, rfl⟩ := mkElse_ok h
    refine ⟨rfl, Back.intro hm (by simp [back, plain, fmk]) ?_⟩
    intro c hc; cases hc <;> first | exact fm _ _ ‹_› | exact ft _ ‹_› | exact fe _ ‹_› | (cases ‹_ ∈ []›; done)
  case pack =>
    obtain ⟨wm, ⟨fmk, fm⟩, h⟩ := slot_emap hg h
    obtain ⟨hm, rfl⟩ := mk_ok h
    refine ⟨rfl, Back.intro hm (by simp [back, plain, fmk]) ?_⟩
    intro c hc; cases hc <;> first | exact fm _ _ ‹_› | (cases ‹_ ∈ []›; done)
  case unpack =>
    obtain ⟨wb, fb, h⟩ := slot_expr hg h
    obtain ⟨wf, ff, h⟩ := slot_format hg h
    obtain ⟨wt, ⟨ft, ftc⟩, h⟩ := slot_elist hg h
    obtain ⟨hm, rfl⟩ := mk_ok h
    refine ⟨rfl, Back.intro hm (by simp [back, plain, ff]) ?_⟩
    intro c hc; cases hc <;> first | exact fb | exact ft _ ‹_› | (cases ‹_ ∈ []›; done)
  case unpackElse =>
    obtain ⟨wb, fb, h⟩ := slot_expr hg h
    obtain ⟨wf, ff, h⟩ := slot_format hg h
    obtain ⟨wt, ⟨ft, ftc⟩, h⟩ := slot_elist hg h
    obtain ⟨we, ⟨fe, fec⟩, h⟩ := slot_elist hg h
    obtain ⟨hm, rfl⟩ := mkElse_ok h
    refine ⟨rfl, Back.intro hm (by simp [back, plain, ff]) ?_⟩
    intro c hc; cases hc <;> first | exact fb | exact ft _ ‹_› | exact fe _ ‹_› | (cases ‹_ ∈ []›; done)
  case doc =>
    obtain ⟨ws, fs, h⟩ := slot_str h
    obtain ⟨hm, rfl⟩ := mk_ok h
    refine ⟨rfl, Back.intro hm (rfl) ?_⟩
    intro c hc; cases hc
  case error =>
    obtain ⟨ws, fs, h⟩ := slot_str h
    obtain ⟨hm, rfl⟩ := mk_ok h
    refine ⟨rfl, Back.intro hm (rfl) ?_⟩
    intro c hc; cases hc
  case try_ =>
    obtain ⟨wl, ⟨fl, flc⟩, h⟩ := slot_elist hg h
    obtain ⟨hm, rfl⟩ := mk_ok h
    refine ⟨rfl, Back.intro hm (rfl) ?_⟩
    intro c hc; cases hc <;> first | exact fl _ ‹_› | (cases ‹_ ∈ []›; done)
  case tryFilter =>
    obtain ⟨wl, ⟨fl, flc⟩, h⟩ := slot_elist hg h
    obtain ⟨wf, ff, h⟩ := slot_filter h
    obtain ⟨hm, rfl⟩ := mk_ok h
    refine ⟨rfl, Back.intro hm (rfl) ?_⟩
    intro c hc; cases hc <;> first | exact fl _ ‹_› | (cases ‹_ ∈ []›; done)
  case log =>
    obtain ⟨wl, ⟨fl, flc⟩, h⟩ := slot_elist hg h
    obtain ⟨hm, rfl⟩ := mk_ok h
    refine ⟨rfl, Back.intro hm (rfl) ?_⟩
    intro c hc; cases hc <;> first | exact fl _ ‹_› | (cases ‹_ ∈ []›; done)
  case logNs =>
    obtain ⟨wl, ⟨fl, flc⟩, h⟩ := slot_elist hg h
    obtain ⟨ws, fs, h⟩ := slot_str h
    obtain ⟨hm, rfl⟩ := mk_ok h
    refine ⟨rfl, Back.intro hm (rfl) ?_⟩
    intro c hc; cases hc <;> first | exact fl _ ‹_› | (cases ‹_ ∈ []›; done)
  case fcnDef =>
    obtain ⟨wp, fp, h⟩ := slot_params hg h
    obtain ⟨wt, ft, h⟩ := slot_ty hg h
    obtain ⟨wb, ⟨fb, fbc⟩, h⟩ := slot_elist hg h
    obtain ⟨hm, rfl⟩ := mk_ok h
    refine ⟨rfl, Back.intro hm (by simp only [back, plain, Bool.and_eq_true, decide_eq_true_eq, List.all_eq_true]; exact ⟨fp, ft⟩) ?_⟩
    intro c hc; cases hc <;> first | exact fb _ ‹_› | (cases ‹_ ∈ []›; done)
  case fcn =>
    obtain ⟨ws, fs, h⟩ := slot_str h
    obtain ⟨hm, rfl⟩ := mk_ok h
    refine ⟨rfl, Back.intro hm (by simp [back, plain, wrongName_ok h4 fs]) ?_⟩
    intro c hc; cases hc
  case fcnFill =>
    obtain ⟨ws, fs, h⟩ := slot_str h
    obtain ⟨wm, ⟨fmk, fm⟩, h⟩ := slot_emap hg h
    obtain ⟨hm, rfl⟩ := mk_ok h
    refine ⟨rfl, Back.intro hm (by simp [back, plain, wrongName_ok h4 fs, fmk]) ?_⟩
    intro c hc; cases hc <;> first | exact fm _ _ ‹_› | (cases ‹_ ∈ []›; done)
  case call =>
    obtain ⟨we, fe, h⟩ := slot_expr hg h
    obtain ⟨wl, ⟨fl, flc⟩, h⟩ := slot_elist hg h
    obtain ⟨hm, rfl⟩ := mk_ok h
    refine ⟨rfl, Back.intro hm (rfl) ?_⟩
    intro c hc; cases hc <;> first | exact fe | exact fl _ ‹_› | (cases ‹_ ∈ []›; done)

theorem assemble_back {ss : List (String × Slot)} (hg : GoodS ss) {ks : List String} (hks : "@" ∉ ks) {e : X} (h : assemble ss ks = .ok e) :
    isArg e = true ∧ Back e := by
  unfold assemble at h
  by_cases hw : (wrongName ss validSymbol "foreach" || wrongName ss validSymbol "forkey" || wrongName ss validSymbol "forval"
    || wrongName ss validFunction "fcn") = true
  · rw [if_pos hw] at h; cases h
  · rw [if_neg hw] at h
    simp only [Bool.or_eq_true, not_or, Bool.not_eq_true] at hw
    cases hf : formOf ks with
    | some f => rw [hf] at h; exact build_back hg hw.1.1.1 hw.1.1.2 hw.1.2 hw.2 h
    | none =>
      rw [hf] at h
      match ks, hks, h with
      | [], _, h => cases h
      | _ :: _ :: _, _, h => cases h
      | [k], hks, h =>
        simp only at h
        by_cases hr : k ∈ reserved
        · rw [if_pos hr] at h; cases h
        · rw [if_neg hr] at h
          by_cases hk : k ∈ PyDict.keys kinds
          · rw [if_pos hk] at h; cases h
          · rw [if_neg hk] at h
            obtain ⟨l, ⟨hl, _⟩, h⟩ := slot_elist hg h
            obtain ⟨hm, rfl⟩ := mk_ok h
            have hn : k ≠ "@" := fun e => hks (by simp [e])
            refine ⟨rfl, Back.intro hm (by simp [back, plain, hn, hk]) ?_⟩
            intro c hc; cases hc; exact hl _ ‹_›

theorem readWord_back (w : List Char) : Back (readWord w) := by
  unfold readWord
  cases Lib.Num.pyInt 10 w with
  | none => exact Back.intro rfl rfl (fun c hc => by cases hc)
  | some i => exact Back.intro rfl rfl (fun c hc => by cases hc)

theorem readRef_back {s : String} {e : X} (h : readRef s = .ok e) : isArg e = true ∧ Back e := by
  unfold readRef at h
  by_cases hd : '.' ∈ s.toList
  · rw [if_pos hd] at h
    cases hw : words s.toList with
    | nil => rw [hw] at h; cases h
    | cons ref rest =>
      rw [hw] at h
      simp only at h
      by_cases hv : validSymbol (String.ofList ref) = true
      · rw [if_pos hv] at h
        obtain ⟨hm, rfl⟩ := mk_ok h
        refine ⟨rfl, Back.intro hm rfl ?_⟩
        intro c hc
        cases hc with
        | attrGet_expr => exact Back.intro rfl hv (fun c hc => by cases hc)
        | attrGet_path hx => obtain ⟨w, _, rfl⟩ := List.mem_map.1 hx; exact readWord_back w
      · rw [if_neg hv] at h; cases h
  · rw [if_neg hd] at h
    by_cases hv : validSymbol s = true
    · rw [if_pos hv] at h
      obtain ⟨hm, rfl⟩ := mk_ok h
      exact ⟨rfl, Back.intro hm hv (fun c hc => by cases hc)⟩
    · rw [if_neg hv] at h; cases h

theorem leaf {e e' : X} (h : mk e = .ok e') (ha : isArg e = true) (hb : back e = true) (hc : ∀ c, ¬ Child c e) : isArg e' = true ∧ Back e' := by
  obtain ⟨hm, rfl⟩ := mk_ok h
  exact ⟨ha, Back.intro hm hb (fun c h => absurd h (hc c))⟩

theorem entries_no_at (d : List (String × Val)) : "@" ∉ PyDict.keys (entries d) :=
  keys_ne (fun kv h => by simpa using (List.mem_filter.1 h).2)

theorem readStep_back {rec : Val → Res X} (ih : ∀ v e, rec v = .ok e → isArg e = true ∧ Back e) (v : Val) (e : X)
    (h : readStep rec v = .ok e) : isArg e = true ∧ Back e := by
  match v, h with
  | .null, h => exact leaf h rfl rfl (fun c hc => by cases hc)
  | .bool b, h => exact leaf h rfl rfl (fun c hc => by cases hc)
  | .int i, h =>
    simp only [readStep] at h
    by_cases h1 : -2 ^ 31 ≤ i ∧ i ≤ 2 ^ 31 - 1
    · rw [if_pos h1] at h; exact leaf h rfl rfl (fun c hc => by cases hc)
    · rw [if_neg h1] at h
      by_cases h2 : -2 ^ 63 ≤ i ∧ i ≤ 2 ^ 63 - 1
      · rw [if_pos h2] at h; exact leaf h rfl (by simpa [back, plain] using h2) (fun c hc => by cases hc)
      · rw [if_neg h2] at h; cases h
  | .flt f, h => exact leaf h rfl rfl (fun c hc => by cases hc)
  | .str s, h => exact readRef_back h
  | .bytes _, h => cases h
  | .arr xs, h =>
    match xs, h with
    | [.str s], h => exact leaf h rfl rfl (fun c hc => by cases hc)
    | [], h => cases h
    | [.null], h | [.bool _], h | [.int _], h | [.flt _], h | [.bytes _], h | [.arr _], h | [.dict _], h => cases h
    | _ :: _ :: _, h => simp [readStep] at h
  | .dict d, h =>
    simp only [readStep] at h
    cases hs : readSlots rec (entries d) with
    | error e => rw [hs] at h; cases h
    | ok ss => rw [hs] at h; exact assemble_back (readSlots_good ih hs) (entries_no_at d) h

/-- Every expression that the reader returns could be constructed and can be printed, apart from the values of LiteralInt. -/
theorem read_back : ∀ (n : Nat) (v : Val) (e : X), readArg n v = .ok e → isArg e = true ∧ Back e
  | 0, _, _, h => by cases h
  | n + 1, v, e, h => readStep_back (read_back n) v e h

/-- **C45, for what was read.** Printing what the reader returned and reading it again gives the same expression, if every
LiteralInt in it holds a number of 32 bits. -/
theorem read_print_read_partial {n : Nat} {v : Val} {e : X} (h : readArg n v = .ok e)
    (hi : ∀ w, Part (.litInt w) e → ∃ i : Int, w = .int i ∧ -2 ^ 31 ≤ i ∧ i ≤ 2 ^ 31 - 1) (pos : Pos) {m : Nat} (hm : Deep m e) :
    readArg m (node pos e) = .ok e := by
  obtain ⟨ha, hb⟩ := read_back n v e h
  refine read_node m e hm ha (fun x hx => ⟨(hb x hx).1, ?_⟩) pos
  have h2 := (hb x hx).2
  cases x <;> try exact h2
  obtain ⟨i, rfl, h⟩ := hi _ hx
  simpa [plain] using h

end Verif.Reader
