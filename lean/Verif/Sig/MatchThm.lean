import Verif.Sig.Match
/-!
# Matching argument types with signatures: theorems (C38)
-/

namespace Verif.Sig

open Avro

/-! ## Specification -/

/-- The pattern of a simple type. -/
def Pat.prim : Pat → Option AType
  | .null => some .null | .boolean => some .boolean | .int => some .int | .long => some .long
  | .float => some .float | .double => some .double | .bytes => some .bytes | .string => some .string
  | _ => none

/-- Types fit at the top: equal if strict, otherwise acceptance in the direction of the position.  The
argument is no union. -/
def PrimFits (t u : AType) (strict rev : Bool) : Prop :=
  u.flat = true ∧ if strict then u = t else if rev then accepts [] [] u t = true else accepts [] [] t u = true

/-- An argument type fits a pattern, where `M l a` says that label `l` met type `a`.  The flags say that
promotion is off and that the position is contravariant.  Functions may differ in the number of
parameters here, see `fcn_arity_violation`. -/
inductive Fits (env : Env) (M : String → CType → Prop) : Pat → CType → Bool → Bool → Prop
  | prim {p : Pat} {t u : AType} {s r} : p.prim = some t → PrimFits t u s r → Fits env M p (.avro u) s r
  | array {p i s r} : Fits env M p (.avro i) s r → Fits env M (.array p) (.avro (.array i)) s r
  | map {p i s r} : Fits env M p (.avro i) s r → Fits env M (.map p) (.avro (.map i)) s r
  /-- different members of the union fit different patterns -/
  | union {ps : List Pat} {ts : List AType} {s r} (idx : Nat → Nat) (pat : Nat → Pat) :
      (∀ i j, i < ts.length → j < ts.length → idx i = idx j → i = j) →
      (∀ i, i < ts.length → ps[idx i]? = some (pat i)) →
      (∀ i a, ts[i]? = some a → Fits env M (pat i) (.avro a) true r) → Fits env M (.union ps) (.avro (.union ts)) s r
  | member {ps p t s r} : p ∈ ps → t.flat = true → Fits env M p (.avro t) s r → Fits env M (.union ps) (.avro t) s r
  | fixedName {size n k s r} : Fits env M (.fixed size (some n)) (.avro (.fixed n k)) s r
  | fixedSize {size n s r} : Fits env M (.fixed size none) (.avro (.fixed n size)) s r
  | enumName {syms n k s r} : Fits env M (.enum syms (some n)) (.avro (.enum n k)) s r
  | enumSyms {syms n s r} : Fits env M (.enum syms none) (.avro (.enum n syms)) s r
  | recordName {fs n s r} : Fits env M (.record fs (some n)) (.avro (.record n)) s r
  /-- exactly the fields of the pattern -/
  | recordFields {fs : List (String × Pat)} {n s r} (field : String → Field) :
      (∀ k p, (k, p) ∈ fs → field k ∈ (env.fields? n).getD [] ∧ (field k).name = k) →
      (∀ f ∈ (env.fields? n).getD [], ∃ p, (f.name, p) ∈ fs) →
      (∀ k p, (k, p) ∈ fs → Fits env M p (.avro (field k).type) true r) →
      Fits env M (.record fs none) (.avro (.record n)) s r
  | fcn {ps : List Pat} {ret : Pat} {qs : List CType} {aret s r} :
      (∀ (i : Nat) p q, ps[i]? = some p → qs[i]? = some q → Fits env M p q s true) → Fits env M ret aret s false →
      Fits env M (.fcn ps ret) (.fcn qs aret) s r
  | wild {l oneOf a s r} : a ≠ .exc → (∀ ts, oneOf = some ts → ∃ t ∈ ts, a = .avro t) → M l a → Fits env M (.wild l oneOf) a s r
  /-- at least the fields of the pattern -/
  | wildRecord {l} {fs : List (String × Pat)} {n s r} (field : String → Field) : M l (.avro (.record n)) →
      (∀ k p, (k, p) ∈ fs → field k ∈ (env.fields? n).getD [] ∧ (field k).name = k) →
      (∀ k p, (k, p) ∈ fs → Fits env M p (.avro (field k).type) true r) →
      Fits env M (.wildRecord l fs) (.avro (.record n)) s r
  /-- any type at all, see `wildEnum_violation` -/
  | wildEnum {l a s r} : a ≠ .exc → M l a → Fits env M (.wildEnum l) a s r
  | wildFixed {l a s r} : a ≠ .exc → M l a → Fits env M (.wildFixed l) a s r
  | enumFields {l wr n syms s r} : M l (.avro (.enum n syms)) → Fits env M (.enumFields l wr) (.avro (.enum n syms)) s r

theorem Fits.mono {env : Env} {M M' : String → CType → Prop} (hM : ∀ l a, M l a → M' l a) {p a s r}
    (h : Fits env M p a s r) : Fits env M' p a s r := by
  induction h with
  | prim h1 h2 => exact .prim h1 h2
  | array _ ih => exact .array ih
  | map _ ih => exact .map ih
  | union idx pat h1 h2 _ ih => exact .union idx pat h1 h2 ih
  | member h1 h2 _ ih => exact .member h1 h2 ih
  | fixedName => exact .fixedName
  | fixedSize => exact .fixedSize
  | enumName => exact .enumName
  | enumSyms => exact .enumSyms
  | recordName => exact .recordName
  | recordFields field h1 h2 _ ih => exact .recordFields field h1 h2 ih
  | fcn _ _ ih ih' => exact .fcn ih ih'
  | wild h1 h2 h3 => exact .wild h1 h2 (hM _ _ h3)
  | wildRecord field h1 h2 _ ih => exact .wildRecord field (hM _ _ h1) h2 ih
  | wildEnum h1 h2 => exact .wildEnum h1 (hM _ _ h2)
  | wildFixed h1 h2 => exact .wildFixed h1 (hM _ _ h2)
  | enumFields h => exact .enumFields (hM _ _ h)

/-! ## The state of the labels -/

/-- Label `l` met type `a`. -/
def Met (d : LDict) (h : Heap) (l : String) (a : CType) : Prop :=
  ∃ ref ld, d.get? l = some ref ∧ h[ref]? = some ld ∧ a ∈ ld.members

/-- The state only grows. -/
structure Ext (d : LDict) (h : Heap) (d' : LDict) (h' : Heap) : Prop where
  dict : ∀ l ref, d.get? l = some ref → d'.get? l = some ref
  heap : ∀ (ref : Nat) ld, h[ref]? = some ld → ∃ ld', h'[ref]? = some ld' ∧ ∀ a ∈ ld.members, a ∈ ld'.members

/-- References are valid and all types met are types of the document other than the exception type. -/
structure Inv (G : CType → Prop) (d : LDict) (h : Heap) : Prop where
  wf : d.WF
  valid : ∀ l ref, d.get? l = some ref → ref < h.length
  good : ∀ ld ∈ h, ∀ a ∈ ld.members, a ≠ .exc ∧ G a

theorem Ext.refl (d h) : Ext d h d h := ⟨fun _ _ h => h, fun _ ld h => ⟨ld, h, fun _ h => h⟩⟩

theorem Ext.trans {d1 h1 d2 h2 d3 h3} (a : Ext d1 h1 d2 h2) (b : Ext d2 h2 d3 h3) : Ext d1 h1 d3 h3 := by
  refine ⟨fun l r h => b.dict l r (a.dict l r h), fun r ld h => ?_⟩
  obtain ⟨ld', h', s'⟩ := a.heap r ld h
  obtain ⟨ld'', h'', s''⟩ := b.heap r ld' h'
  exact ⟨ld'', h'', fun x hx => s'' x (s' x hx)⟩

theorem Ext.met {d h d' h'} (e : Ext d h d' h') {l a} (m : Met d h l a) : Met d' h' l a := by
  obtain ⟨ref, ld, h1, h2, h3⟩ := m
  obtain ⟨ld', h4, h5⟩ := e.heap ref ld h2
  exact ⟨ref, ld', e.dict l ref h1, h4, h5 a h3⟩

theorem addMember_spec {G : CType → Prop} {l : String} {a : CType} {d : LDict} {h : Heap} (hi : Inv G d h)
    (ha : a ≠ .exc) (hg : G a) :
    Inv G (addMember l a d h).1 (addMember l a d h).2 ∧ Ext d h (addMember l a d h).1 (addMember l a d h).2 ∧
    Met (addMember l a d h).1 (addMember l a d h).2 l a := by
  unfold addMember
  cases hl : d.get? l with
  | none =>
    simp only
    refine ⟨⟨PyDict.set_nodup hi.wf _ _, ?_, ?_⟩, ⟨?_, ?_⟩, h.length, ⟨[a], none⟩, PyDict.get?_set_self .., by simp, by simp⟩
    · intro l' ref hr
      rw [PyDict.get?_set] at hr
      split at hr
      · cases hr; simp
      · have := hi.valid l' ref hr; simp; omega
    · intro ld hld x hx
      rcases List.mem_append.1 hld with hld | hld
      · exact hi.good ld hld x hx
      · simp only [List.mem_singleton] at hld; subst hld
        simp only [List.mem_singleton] at hx; subst hx; exact ⟨ha, hg⟩
    · intro l' ref hr
      rw [PyDict.get?_set]
      split
      · next heq => subst heq; rw [hl] at hr; cases hr
      · exact hr
    · intro ref ld hr
      refine ⟨ld, ?_, fun _ h => h⟩
      rw [List.getElem?_append_left (by have := List.getElem?_eq_some_iff.1 hr; exact this.1)]; exact hr
  | some r =>
    simp only
    have hv := hi.valid l r hl
    refine ⟨⟨hi.wf, ?_, ?_⟩, ⟨fun _ _ h => h, ?_⟩, r, { h[r] with members := h[r].members ++ [a] }, hl, ?_, by simp⟩
    · intro l' ref hr; simpa using hi.valid l' ref hr
    · intro ld hld x hx
      obtain ⟨i, hi', rfl⟩ := List.getElem_of_mem hld
      rw [List.getElem_modify] at hx
      have hi'' : i < h.length := by simpa using hi'
      split at hx
      · simp only [List.mem_append, List.mem_singleton] at hx
        rcases hx with hx | rfl
        · exact hi.good _ (List.getElem_mem hi'') x hx
        · exact ⟨ha, hg⟩
      · exact hi.good _ (List.getElem_mem hi'') x hx
    · intro ref ld hr
      rw [List.getElem?_modify]
      split
      · next heq => rw [hr]; exact ⟨_, rfl, fun x hx => by simp [hx]⟩
      · exact ⟨ld, by simp [hr], fun _ h => h⟩
    · rw [List.getElem?_modify]; simp [List.getElem?_eq_getElem hv]

/-- What a check must satisfy for an argument. -/
def Sound (G : CType → Prop) (c : LDict → Heap → Out) (P : LDict → Heap → Prop) : Prop :=
  ∀ d h b d' h', Inv G d h → c d h = .ok (b, d', h') → Inv G d' h' ∧ Ext d h d' h' ∧ (b = true → P d' h')

theorem allC_sound {G : CType → Prop} {cs : List (LDict → Heap → Out)} {P : Nat → LDict → Heap → Prop}
    (hP : ∀ i d h d' h', Ext d h d' h' → P i d h → P i d' h')
    (hc : ∀ (i : Nat) c, cs[i]? = some c → Sound G c (P i)) : Sound G (allC cs) (fun d h => ∀ i < cs.length, P i d h) := by
  induction cs generalizing P with
  | nil =>
    intro d h b d' h' hi he
    cases he
    exact ⟨hi, .refl _ _, by simp⟩
  | cons c cs ih =>
    intro d h b d' h' hi he
    rw [allC] at he
    cases h1 : c d h with
    | error e => rw [h1] at he; cases he
    | ok r =>
      obtain ⟨b1, d1, hp1⟩ := r
      rw [h1] at he
      obtain ⟨i1, e1, p1⟩ := hc 0 c rfl d h b1 d1 hp1 hi h1
      cases b1 with
      | false => cases he; exact ⟨i1, e1, by simp⟩
      | true =>
        obtain ⟨i2, e2, p2⟩ := ih (P := fun i => P (i + 1)) (fun i => hP (i + 1)) (fun i c hc' => hc (i + 1) c hc') d1 hp1 b d' h' i1 he
        refine ⟨i2, e1.trans e2, fun hb i hi => ?_⟩
        cases i with
        | zero => exact hP 0 _ _ _ _ e2 (p1 rfl)
        | succ i => exact p2 hb i (by simpa using hi)

theorem anyC_sound {G : CType → Prop} {cs : List (LDict → Heap → Out)} {P : LDict → Heap → Prop}
    (hc : ∀ c ∈ cs, Sound G c P) : Sound G (anyC cs) P := by
  induction cs with
  | nil =>
    intro d h b d' h' hi he
    cases he
    exact ⟨hi, .refl _ _, by simp⟩
  | cons c cs ih =>
    intro d h b d' h' hi he
    rw [anyC] at he
    cases h1 : c d h with
    | error e => rw [h1] at he; cases he
    | ok r =>
      obtain ⟨b1, d1, hp1⟩ := r
      rw [h1] at he
      obtain ⟨i1, e1, p1⟩ := hc c (by simp) d h b1 d1 hp1 hi h1
      cases b1 with
      | true => cases he; exact ⟨i1, e1, p1⟩
      | false =>
        obtain ⟨i2, e2, p2⟩ := ih (fun c' hc' => hc c' (by simp [hc'])) d1 hp1 b d' h' i1 he
        exact ⟨i2, e1.trans e2, p2⟩

/-- Only the types in patterns with checkers. -/
def SoundFor (env : Env) (G : CType → Prop) (p : Pat) (c : Checker) : Prop :=
  ∀ a s r, G a → Sound G (c a s r) (fun d h => Fits env (Met d h) p a s r)

theorem Ext.of_heap {d : LDict} {h h' : Heap} {d1 : LDict} (e : Ext d h d1 h') : Ext d h d h' := ⟨fun _ _ h => h, e.heap⟩

theorem Inv.of_heap {G : CType → Prop} {d d1 : LDict} {h h' : Heap} (hi : Inv G d h) (e : Ext d h d1 h') (hi' : Inv G d1 h') :
    Inv G d h' := by
  refine ⟨hi.wf, fun l ref hr => ?_, hi'.good⟩
  have hv := hi.valid l ref hr
  obtain ⟨ld', h1, -⟩ := e.heap ref h[ref] (List.getElem?_eq_getElem hv)
  exact (List.getElem?_eq_some_iff.1 h1).1

/-- One member of the union against the available patterns. -/
theorem pick_sound {env : Env} {G : CType → Prop} {a : AType} (ha : G (.avro a)) {rev : Bool} {av : List (Nat × Pat)} {cs : List Checker}
    (hf : List.Forall₂ (fun q c => SoundFor env G q.2 c) av cs) {d h o d' h'} (hi : Inv G d h)
    (he : pick a rev cs d h = .ok (o, d', h')) :
    Inv G d' h' ∧ Ext d h d' h' ∧ ∀ cs', o = some cs' → ∃ q av', (q :: av').Perm av ∧
      List.Forall₂ (fun q c => SoundFor env G q.2 c) av' cs' ∧ Fits env (Met d' h') q.2 (.avro a) true rev := by
  induction hf generalizing d h o d' h' with
  | nil => cases he; exact ⟨hi, .refl _ _, by simp⟩
  | @cons q c av cs hq hf ih =>
    rw [pick] at he
    cases h1 : c (.avro a) true rev d h with
    | error e => rw [h1] at he; cases he
    | ok res =>
      obtain ⟨b1, d1, hp1⟩ := res
      rw [h1] at he
      obtain ⟨i1, e1, p1⟩ := hq (.avro a) true rev ha d h b1 d1 hp1 hi h1
      cases b1 with
      | true =>
        cases he
        refine ⟨i1, e1, fun cs' hcs => ?_⟩
        cases hcs
        exact ⟨q, av, .refl _, hf, p1 rfl⟩
      | false =>
        simp only at he
        cases h2 : pick a rev cs d1 hp1 with
        | error e => rw [h2] at he; cases he
        | ok res2 =>
          obtain ⟨o2, d2, hp2⟩ := res2
          rw [h2] at he
          obtain ⟨i2, e2, p2⟩ := ih i1 h2
          cases o2 with
          | none => cases he; exact ⟨i2, e1.trans e2, by simp⟩
          | some cs2 =>
            cases he
            refine ⟨i2, e1.trans e2, fun cs' hcs => ?_⟩
            cases hcs
            obtain ⟨q', av', hperm, hf', hfit⟩ := p2 cs2 rfl
            exact ⟨q', q :: av', (List.Perm.swap _ _ _).trans (hperm.cons q), .cons hq hf', hfit⟩

/-- The members in one order. -/
theorem tryPerm_sound {env : Env} {G : CType → Prop} {rev : Bool} {as : List AType} (ha : ∀ a ∈ as, G (.avro a))
    {av : List (Nat × Pat)} {cs : List Checker} (hf : List.Forall₂ (fun q c => SoundFor env G q.2 c) av cs) {d h b d' h'} (hi : Inv G d h)
    (he : tryPerm rev cs as d h = .ok (b, d', h')) :
    Inv G d' h' ∧ Ext d h d' h' ∧ (b = true → ∃ qs : List (Nat × Pat), qs.Subperm av ∧
      List.Forall₂ (fun q a => Fits env (Met d' h') q.2 (.avro a) true rev) qs as) := by
  induction as generalizing av cs d h with
  | nil => cases he; exact ⟨hi, .refl _ _, fun _ => ⟨[], List.nil_subperm, .nil⟩⟩
  | cons a as ih =>
    rw [tryPerm] at he
    cases h1 : pick a rev cs d h with
    | error e => rw [h1] at he; cases he
    | ok res =>
      obtain ⟨o, d1, hp1⟩ := res
      rw [h1] at he
      obtain ⟨i1, e1, p1⟩ := pick_sound (ha a (by simp)) hf hi h1
      cases o with
      | none => cases he; exact ⟨i1, e1, by simp⟩
      | some cs' =>
        obtain ⟨q, av', hperm, hf', hfit⟩ := p1 cs' rfl
        obtain ⟨i2, e2, p2⟩ := ih (fun a' ha' => ha a' (by simp [ha'])) hf' i1 he
        refine ⟨i2, e1.trans e2, fun hb => ?_⟩
        obtain ⟨qs, hs, hall⟩ := p2 hb
        exact ⟨q :: qs, ((List.subperm_cons q).2 hs).trans hperm.subperm, .cons (hfit.mono (fun _ _ => e2.met)) hall⟩

/-- The members in some order. -/
theorem tryPerms_sound {env : Env} {G : CType → Prop} {rev : Bool} {perms : List (List AType)}
    (ha : ∀ p ∈ perms, ∀ a ∈ p, G (.avro a)) {av : List (Nat × Pat)} {cs : List Checker}
    (hf : List.Forall₂ (fun q c => SoundFor env G q.2 c) av cs) {d h b d' h'} (hi : Inv G d h)
    (he : tryPerms rev cs d perms d h = .ok (b, d', h')) :
    Inv G d' h' ∧ Ext d h d' h' ∧ (b = true → ∃ as ∈ perms, ∃ qs : List (Nat × Pat), qs.Subperm av ∧
      List.Forall₂ (fun q a => Fits env (Met d' h') q.2 (.avro a) true rev) qs as) := by
  induction perms generalizing h with
  | nil => cases he; exact ⟨hi, .refl _ _, by simp⟩
  | cons p perms ih =>
    rw [tryPerms] at he
    cases h1 : tryPerm rev cs p d h with
    | error e => rw [h1] at he; cases he
    | ok res =>
      obtain ⟨b1, d1, hp1⟩ := res
      rw [h1] at he
      obtain ⟨i1, e1, p1⟩ := tryPerm_sound (ha p (by simp)) hf hi h1
      cases b1 with
      | true => cases he; exact ⟨i1, e1, fun _ => ⟨p, by simp, p1 rfl⟩⟩
      | false =>
        obtain ⟨i2, e2, p2⟩ := ih (fun p' hp' => ha p' (by simp [hp'])) (hi.of_heap e1 i1) he
        refine ⟨i2, e1.of_heap.trans e2, fun hb => ?_⟩
        obtain ⟨as, has, h⟩ := p2 hb
        exact ⟨as, by simp [has], h⟩

theorem get?_update' {ν : Type} (d e : PyDict String ν) (he : e.WF) (k : String) :
    (d.update e).get? k = match e.get? k with | some v => some v | none => d.get? k := by
  unfold PyDict.update
  induction e generalizing d with
  | nil => simp [PyDict.get?]
  | cons p e ih =>
    obtain ⟨k', v⟩ := p
    have hk : k' ∉ PyDict.keys e ∧ PyDict.WF e := by
      simpa [PyDict.WF, PyDict.keys, List.nodup_cons] using he
    rw [List.foldl_cons, ih _ hk.2, PyDict.get?_cons]
    by_cases h : k' = k
    · subst h
      rw [(PyDict.get?_eq_none_iff e k').2 hk.1]
      simp [PyDict.get?_set]
    · simp [PyDict.get?_set, h]

theorem update_wf {ν : Type} (d e : PyDict String ν) (hd : d.WF) : (d.update e).WF := by
  unfold PyDict.update
  induction e generalizing d with
  | nil => exact hd
  | cons p e ih => exact ih _ (PyDict.set_nodup hd _ _)

/-- The numbered patterns. -/
def numbered (ps : List Pat) : List (Nat × Pat) := (List.range ps.length).zip ps

theorem mem_numbered {ps : List Pat} {q : Nat × Pat} (h : q ∈ numbered ps) : ps[q.1]? = some q.2 := by
  obtain ⟨i, hi, rfl⟩ := List.getElem_of_mem h
  simp [numbered]

theorem numbered_nodup (ps : List Pat) : ((numbered ps).map Prod.fst).Nodup := by
  unfold numbered
  rw [List.map_fst_zip (by simp)]; exact List.nodup_range

theorem unionUnion_sound {env : Env} {G : CType → Prop} {ps : List Pat} {cs : List Checker}
    (hc : List.Forall₂ (SoundFor env G) ps cs) {ts : List AType} (hts : ∀ t ∈ ts, G (.avro t)) (s r : Bool) :
    Sound G (unionUnion cs ts r) (fun d h => Fits env (Met d h) (.union ps) (.avro (.union ts)) s r) := by
  intro d h b d' h' hi he
  unfold unionUnion at he
  cases h1 : tryPerms r cs d (Lib.permutations ts) d h with
  | error e => rw [h1] at he; cases he
  | ok res =>
    obtain ⟨b1, d1, hp1⟩ := res
    rw [h1] at he
    cases he
    have hperm := (Lib.permutations_spec ts).1
    have hf : List.Forall₂ (fun q c => SoundFor env G q.2 c) (numbered ps) cs := by
      rw [List.forall₂_iff_get] at hc ⊢
      obtain ⟨hl, hc⟩ := hc
      refine ⟨by simp [numbered, hl], fun i h1 h2 => ?_⟩
      have := hc i (by omega) h2
      simpa [numbered] using this
    obtain ⟨i1, e1, p1⟩ := tryPerms_sound (fun p hp a ha => hts a (((hperm p).1 hp).mem_iff.1 ha)) hf hi h1
    have hget : ∀ k, (d.update d1).get? k = d1.get? k := by
      intro k
      rw [get?_update' _ _ i1.wf]
      cases hk : d1.get? k with
      | some v => rfl
      | none =>
        cases hk' : d.get? k with
        | none => rfl
        | some v => rw [e1.dict k v hk'] at hk; cases hk
    have hmet : ∀ l a, Met d1 h' l a → Met (d.update d1) h' l a := by
      rintro l a ⟨ref, ld, x1, x2, x3⟩
      exact ⟨ref, ld, by rw [hget]; exact x1, x2, x3⟩
    refine ⟨⟨update_wf _ _ hi.wf, fun l ref hr => i1.valid l ref (by rw [← hget]; exact hr), i1.good⟩,
      ⟨fun l ref hr => by rw [hget]; exact e1.dict l ref hr, e1.heap⟩, fun hb => ?_⟩
    obtain ⟨as, has, qs, hsub, hall⟩ := p1 hb
    obtain ⟨qs', hall', hqs⟩ := List.perm_comp_forall₂ ((hperm as).1 has).symm hall.flip
    have hsub' : qs'.Subperm (numbered ps) := hqs.subperm.trans hsub
    have hlen : qs'.length = ts.length := hall'.length_eq.symm
    have hnd : (qs'.map Prod.fst).Nodup := by
      obtain ⟨l, hl1, hl2⟩ := hsub'
      exact (hl1.map Prod.fst).nodup_iff.1 ((numbered_nodup ps).sublist (hl2.map Prod.fst))
    have hget' : ∀ i, i < ts.length → qs'[i]? = some (qs'.getD i (0, .null)) := by
      intro i hi
      have : i < qs'.length := by omega
      simp [List.getElem?_eq_getElem this]
    refine Fits.union (fun i => (qs'.getD i (0, .null)).1) (fun i => (qs'.getD i (0, .null)).2) ?_ ?_ ?_
    · intro i j hi hj hij
      have h1 : (qs'.map Prod.fst)[i]? = (qs'.map Prod.fst)[j]? := by
        rw [List.getElem?_map, List.getElem?_map, hget' i hi, hget' j hj, Option.map_some, Option.map_some, hij]
      exact (List.getElem?_inj (by simp; omega) hnd).1 h1
    · intro i hi
      exact mem_numbered (hsub'.subset (List.mem_of_getElem? (hget' i hi)))
    · intro i a hia
      have hi : i < ts.length := (List.getElem?_eq_some_iff.1 hia).1
      have := hall'.get hi (by omega)
      have ha : ts.get ⟨i, hi⟩ = a := by simpa using (List.getElem?_eq_some_iff.1 hia).2
      rw [ha] at this
      have hq : qs'.get ⟨i, by omega⟩ = qs'.getD i (0, .null) := by simp [List.getD, List.getElem?_eq_getElem (show i < qs'.length by omega)]
      rw [hq] at this
      exact this.mono hmet

/-! ## Soundness of `check` -/

/-- A class of types closed under parts. -/
structure Closed (env : Env) (G : CType → Prop) : Prop where
  array : ∀ i, G (.avro (.array i)) → G (.avro i)
  map : ∀ i, G (.avro (.map i)) → G (.avro i)
  union : ∀ ts, G (.avro (.union ts)) → ∀ t ∈ ts, G (.avro t)
  record : ∀ n, G (.avro (.record n)) → ∀ f ∈ (env.fields? n).getD [], G (.avro f.type)
  fcn : ∀ ps r, G (.fcn ps r) → (∀ p ∈ ps, G p) ∧ G r

theorem pure_sound {env : Env} {G : CType → Prop} {p : Pat} {f : CType → Bool → Bool → Bool}
    (h : ∀ M a s r, f a s r = true → Fits env M p a s r) : SoundFor env G p (pureC f) := by
  intro a s r _ d hp b d' h' hi he
  cases he
  exact ⟨hi, .refl _ _, fun hb => h _ a s r hb⟩

theorem no_sound {G : CType → Prop} {P : LDict → Heap → Prop} : Sound G (fun d h => .ok (false, d, h)) P := by
  intro d h b d' h' hi he
  cases he
  exact ⟨hi, .refl _ _, by simp⟩

theorem fieldChecks_sound {env : Env} {G : CType → Prop} {fs : List (String × Pat)} {cs : List (String × Checker)}
    (hf : List.Forall₂ (fun kp kc => kp.1 = kc.1 ∧ SoundFor env G kp.2 kc.2) fs cs) {afs : List Field} {r : Bool}
    (hg : ∀ f ∈ afs, G (.avro f.type)) :
    Sound G (allC (fieldChecks cs afs r)) (fun d h => ∃ field : String → Field,
      (∀ k p, (k, p) ∈ fs → field k ∈ afs ∧ (field k).name = k) ∧ ∀ k p, (k, p) ∈ fs → Fits env (Met d h) p (.avro (field k).type) true r) := by
  let dflt : Field := ⟨"", .null, none, .ascending⟩
  let field : String → Field := fun k => (afs.find? (fun f => f.name = k)).getD dflt
  have hlen : fs.length = (fieldChecks cs afs r).length := by simp [fieldChecks, hf.length_eq]
  have key : Sound G (allC (fieldChecks cs afs r)) (fun d h => ∀ i < (fieldChecks cs afs r).length,
      ∀ k p, fs[i]? = some (k, p) → (field k ∈ afs ∧ (field k).name = k) ∧ Fits env (Met d h) p (.avro (field k).type) true r) := by
    refine allC_sound (P := fun i d h => ∀ k p, fs[i]? = some (k, p) → (field k ∈ afs ∧ (field k).name = k) ∧
      Fits env (Met d h) p (.avro (field k).type) true r) ?_ ?_
    · intro i d h d' h' e hp k p hkp
      exact ⟨(hp k p hkp).1, (hp k p hkp).2.mono (fun _ _ => e.met)⟩
    · intro i c hc
      simp only [fieldChecks, List.getElem?_map, Option.map_eq_some_iff] at hc
      obtain ⟨kc, hkc, rfl⟩ := hc
      have hi : i < fs.length := by rw [hf.length_eq]; exact (List.getElem?_eq_some_iff.1 hkc).1
      have hrel := hf.get hi (by rw [← hf.length_eq]; exact hi)
      have hkc' : cs.get ⟨i, by rw [← hf.length_eq]; exact hi⟩ = kc := by simpa using (List.getElem?_eq_some_iff.1 hkc).2
      rw [hkc'] at hrel
      intro d h b d' h' hinv he
      cases hfind : afs.find? (fun f => f.name = kc.1) with
      | none => rw [hfind] at he; cases he
      | some f =>
        rw [hfind] at he
        have hm := List.mem_of_find?_eq_some hfind
        have hn : f.name = kc.1 := by simpa using List.find?_some hfind
        obtain ⟨i1, e1, p1⟩ := hrel.2 (.avro f.type) true r (hg f hm) d h b d' h' hinv he
        refine ⟨i1, e1, fun hb k p hkp => ?_⟩
        have hkp' : fs.get ⟨i, hi⟩ = (k, p) := by simpa using (List.getElem?_eq_some_iff.1 hkp).2
        rw [hkp'] at hrel p1
        have hk : kc.1 = k := hrel.1.symm
        have hfld : field k = f := by simp only [field]; rw [← hk, hfind]; rfl
        rw [hfld]
        exact ⟨⟨hm, hn.trans hk⟩, p1 hb⟩
  intro d h b d' h' hi he
  obtain ⟨i1, e1, p1⟩ := key d h b d' h' hi he
  refine ⟨i1, e1, fun hb => ⟨field, fun k p hkp => ?_, fun k p hkp => ?_⟩⟩
  · obtain ⟨i, hi, hk⟩ := List.getElem_of_mem hkp
    exact (p1 hb i (by omega) k p (by rw [List.getElem?_eq_getElem hi, hk])).1
  · obtain ⟨i, hi, hk⟩ := List.getElem_of_mem hkp
    exact (p1 hb i (by omega) k p (by rw [List.getElem?_eq_getElem hi, hk])).2

theorem expect_sound {G : CType → Prop} {l : String} {syms : List String} {P : LDict → Heap → Prop}
    (hP : ∀ d h d' h', Ext d h d' h' → P d h → P d' h') {d0 h0} (h0P : P d0 h0) (hi : Inv G d0 h0) {b d' h'}
    (he : expect l syms d0 h0 = .ok (b, d', h')) : Inv G d' h' ∧ Ext d0 h0 d' h' ∧ (b = true → P d' h') := by
  unfold expect at he
  cases hl : d0.get? l with
  | none => rw [hl] at he; cases he
  | some ref =>
    rw [hl] at he
    cases he
    have e : Ext d0 h0 d0 (h0.modify ref (fun ld => { ld with expected := some syms })) := by
      refine ⟨fun _ _ h => h, fun ref' ld hr => ?_⟩
      rw [List.getElem?_modify]
      split
      · rw [hr]; exact ⟨_, rfl, fun x hx => by simpa using hx⟩
      · exact ⟨ld, by simp [hr], fun _ h => h⟩
    refine ⟨⟨hi.wf, fun l' r' hr => by simpa using hi.valid l' r' hr, ?_⟩, e, fun _ => hP _ _ _ _ e h0P⟩
    intro ld hld x hx
    obtain ⟨i, hi', rfl⟩ := List.getElem_of_mem hld
    rw [List.getElem_modify] at hx
    have hi'' : i < h0.length := by simpa using hi'
    split at hx <;> exact hi.good _ (List.getElem_mem hi'') x hx

theorem add_sound {G : CType → Prop} {l : String} {a : CType} (ha : a ≠ .exc) (hg : G a) :
    Sound G (fun d h => .ok (true, addMember l a d h)) (fun d h => Met d h l a) := by
  intro d h b d' h' hi he
  obtain ⟨h1, h2, h3⟩ := addMember_spec (l := l) hi ha hg
  simp only [Except.ok.injEq, Prod.mk.injEq] at he
  obtain ⟨rfl, he⟩ := he
  rw [he] at h1 h2 h3
  exact ⟨h1, h2, fun _ => h3⟩

theorem Sound.imp {G : CType → Prop} {c P Q} (h : Sound G c P) (hpq : ∀ d h, P d h → Q d h) : Sound G c Q := by
  intro d hp b d' h' hi he
  obtain ⟨h1, h2, h3⟩ := h d hp b d' h' hi he
  exact ⟨h1, h2, fun hb => hpq _ _ (h3 hb)⟩

mutual
theorem check_sound {env : Env} {G : CType → Prop} (hG : Closed env G) : ∀ p : Pat, SoundFor env G p (check env p)
  | .null => by
    refine pure_sound fun M a s r h => ?_
    split at h
    · exact .prim rfl ⟨rfl, by simp; intro; decide⟩
    · cases h
  | .boolean => by
    refine pure_sound fun M a s r h => ?_
    split at h
    · exact .prim rfl ⟨rfl, by simp; intro; decide⟩
    · cases h
  | .bytes => by
    refine pure_sound fun M a s r h => ?_
    split at h
    · exact .prim rfl ⟨rfl, by simp; intro; decide⟩
    · cases h
  | .string => by
    refine pure_sound fun M a s r h => ?_
    split at h
    · exact .prim rfl ⟨rfl, by simp; intro; decide⟩
    · cases h
  | .int => by
    refine pure_sound fun M a s r h => ?_
    unfold checkInt at h
    split at h <;> first | (cases h; done) | (refine .prim (t := .int) rfl ?_; cases s <;> cases r <;> first | (cases h; done) | exact ⟨rfl, by decide⟩)
  | .long => by
    refine pure_sound fun M a s r h => ?_
    unfold checkLong at h
    split at h <;> first | (cases h; done) | (refine .prim (t := .long) rfl ?_; cases s <;> cases r <;> first | (cases h; done) | exact ⟨rfl, by decide⟩)
  | .float => by
    refine pure_sound fun M a s r h => ?_
    unfold checkFloat at h
    split at h <;> first | (cases h; done) | (refine .prim (t := .float) rfl ?_; cases s <;> cases r <;> first | (cases h; done) | exact ⟨rfl, by decide⟩)
  | .double => by
    refine pure_sound fun M a s r h => ?_
    unfold checkDouble at h
    split at h <;> first | (cases h; done) | (refine .prim (t := .double) rfl ?_; cases s <;> cases r <;> first | (cases h; done) | exact ⟨rfl, by decide⟩)
  | .array p => by
    intro a s r ha
    simp only [check]
    split
    · exact (check_sound hG p _ s r (hG.array _ ha)).imp (fun _ _ h => .array h)
    · exact no_sound
  | .map p => by
    intro a s r ha
    simp only [check]
    split
    · exact (check_sound hG p _ s r (hG.map _ ha)).imp (fun _ _ h => .map h)
    · exact no_sound
  | .union ps => by
    intro a s r ha
    have hL := checkL_sound hG ps
    simp only [check]
    split
    · exact unionUnion_sound hL (hG.union _ ha) s r
    · next t ht =>
      refine anyC_sound (fun c hc => ?_)
      obtain ⟨c', hc', rfl⟩ := List.mem_map.1 hc
      obtain ⟨i, hi, rfl⟩ := List.getElem_of_mem hc'
      have hi' : i < ps.length := by rw [hL.length_eq]; exact hi
      have := hL.get hi' hi
      refine (this (.avro t) s r ha).imp (fun _ _ h => .member (List.get_mem ps ⟨i, hi'⟩) ?_ h)
      cases t <;> first | rfl | exact absurd rfl (ht _)
    · exact no_sound
  | .fixed size name => by
    refine pure_sound fun M a s r h => ?_
    split at h
    · cases name with
      | none => simp only [decide_eq_true_eq] at h; subst h; exact .fixedSize
      | some m => simp only [decide_eq_true_eq] at h; subst h; exact .fixedName
    · cases h
  | .enum symbols name => by
    refine pure_sound fun M a s r h => ?_
    split at h
    · cases name with
      | none => simp only [decide_eq_true_eq] at h; subst h; exact .enumSyms
      | some m => simp only [decide_eq_true_eq] at h; subst h; exact .enumName
    · cases h
  | .record fields name => by
    intro a s r ha
    have hF := checkF_sound hG fields
    simp only [check]
    split
    · next n =>
      cases name with
      | some m =>
        intro d hp b d' h' hi he
        cases he
        refine ⟨hi, .refl _ _, fun hb => ?_⟩
        simp only [decide_eq_true_eq] at hb; subst hb; exact .recordName
      | none =>
        simp only
        split
        · next hk =>
          refine (fieldChecks_sound hF (hG.record _ ha)).imp ?_
          rintro d hp ⟨field, h1, h2⟩
          refine .recordFields field h1 (fun f hf => ?_) h2
          simp only [Bool.and_eq_true, List.all_eq_true, decide_eq_true_eq] at hk
          obtain ⟨⟨k, p⟩, hkp, hk'⟩ := List.mem_map.1 (hk.2 f hf)
          exact ⟨p, by rw [← hk']; exact hkp⟩
        · exact no_sound
    · exact no_sound
  | .fcn ps ret => by
    intro a s r ha
    have hL := checkL_sound hG ps
    have hR := check_sound hG ret
    simp only [check]
    split
    · next qs aret =>
      obtain ⟨hqs, hret⟩ := hG.fcn _ _ ha
      have h1 : Sound G (allC (((checkL env ps).zip qs).map (fun cq => cq.1 cq.2 s true)))
          (fun d h => ∀ i < (((checkL env ps).zip qs).map (fun cq => cq.1 cq.2 s true)).length, ∀ p q, ps[i]? = some p → qs[i]? = some q →
            Fits env (Met d h) p q s true) := by
        refine allC_sound (P := fun i d h => ∀ p q, ps[i]? = some p → qs[i]? = some q → Fits env (Met d h) p q s true) ?_ ?_
        · exact fun i d h d' h' e hp p q hp' hq' => (hp p q hp' hq').mono (fun _ _ => e.met)
        · intro i c hc
          simp only [List.getElem?_map, Option.map_eq_some_iff] at hc
          obtain ⟨⟨c1, q1⟩, hcq, rfl⟩ := hc
          rw [List.getElem?_zip_eq_some] at hcq
          have hic := (List.getElem?_eq_some_iff.1 hcq.1)
          obtain ⟨hi, hic⟩ := hic
          have hi' : i < ps.length := by rw [hL.length_eq]; exact hi
          have hs := hL.get hi' hi
          have : (checkL env ps).get ⟨i, hi⟩ = c1 := hic
          rw [this] at hs
          refine (hs q1 s true (hqs _ (List.mem_of_getElem? hcq.2))).imp (fun d h hfit p q hp hq => ?_)
          rw [hcq.2] at hq; cases hq
          have : ps.get ⟨i, hi'⟩ = p := by simpa using (List.getElem?_eq_some_iff.1 hp).2
          rw [← this]; exact hfit
      intro d h b d' h' hi he
      simp only at he
      cases hall : allC (((checkL env ps).zip qs).map (fun cq => cq.1 cq.2 s true)) d h with
      | error e => rw [hall] at he; cases he
      | ok res =>
        obtain ⟨b1, d1, hp1⟩ := res
        rw [hall] at he
        obtain ⟨i1, e1, p1⟩ := h1 d h b1 d1 hp1 hi hall
        cases b1 with
        | false => cases he; exact ⟨i1, e1, by simp⟩
        | true =>
          obtain ⟨i2, e2, p2⟩ := hR aret s false hret d1 hp1 b d' h' i1 he
          refine ⟨i2, e1.trans e2, fun hb => .fcn (fun i p q hp hq => ?_) (p2 hb)⟩
          refine (p1 rfl i ?_ p q hp hq).mono (fun _ _ => e2.met)
          have hp' := (List.getElem?_eq_some_iff.1 hp).1
          have hq' := (List.getElem?_eq_some_iff.1 hq).1
          have := hL.length_eq
          simp; omega
    · exact no_sound
  | .wild l oneOf => by
    intro a s r ha
    simp only [check]
    split
    · exact no_sound
    · next hne =>
      split
      · next hal =>
        refine (add_sound (fun h => hne h) ha).imp (fun d h hm => .wild (fun h => hne h) (fun ts hts => ?_) hm)
        subst hts
        simp only [allowed, List.any_eq_true, decide_eq_true_eq] at hal
        exact hal
      · exact no_sound
  | .wildRecord l fields => by
    intro a s r ha
    have hF := checkF_sound hG fields
    simp only [check]
    split
    · next n =>
      intro d h b d' h' hi he
      obtain ⟨i0, e0, m0⟩ := addMember_spec (l := l) (a := .avro (.record n)) hi (by simp) ha
      split at he
      · obtain ⟨i1, e1, p1⟩ := fieldChecks_sound hF (hG.record _ ha) _ _ b d' h' i0 he
        refine ⟨i1, e0.trans e1, fun hb => ?_⟩
        obtain ⟨field, h1, h2⟩ := p1 hb
        exact .wildRecord field (e1.met m0) h1 h2
      · simp only [Except.ok.injEq, Prod.mk.injEq] at he
        obtain ⟨rfl, he⟩ := he
        rw [he] at i0 e0
        exact ⟨i0, e0, by simp⟩
    · exact no_sound
  | .wildEnum l => by
    intro a s r ha
    simp only [check]
    split
    · exact no_sound
    · next hne => exact (add_sound (fun h => hne h) ha).imp (fun d h hm => .wildEnum (fun h => hne h) hm)
  | .wildFixed l => by
    intro a s r ha
    simp only [check]
    split
    · exact no_sound
    · next hne => exact (add_sound (fun h => hne h) ha).imp (fun d h hm => .wildFixed (fun h => hne h) hm)
  | .enumFields l wr => by
    intro a s r ha
    simp only [check]
    split
    · next n syms =>
      intro d h b d' h' hi he
      obtain ⟨i0, e0, m0⟩ := addMember_spec (l := l) (a := .avro (.enum n syms)) hi (by simp) ha
      obtain ⟨i1, e1, p1⟩ := expect_sound (P := fun d h => Met d h l (.avro (.enum n syms))) (fun _ _ _ _ e m => e.met m) m0 i0 he
      exact ⟨i1, e0.trans e1, fun hb => .enumFields (p1 hb)⟩
    · exact no_sound
theorem checkL_sound {env : Env} {G : CType → Prop} (hG : Closed env G) :
    ∀ ps : List Pat, List.Forall₂ (SoundFor env G) ps (checkL env ps)
  | [] => .nil
  | p :: ps => .cons (check_sound hG p) (checkL_sound hG ps)
theorem checkF_sound {env : Env} {G : CType → Prop} (hG : Closed env G) : ∀ fs : List (String × Pat),
    List.Forall₂ (fun kp kc => kp.1 = kc.1 ∧ SoundFor env G kp.2 kc.2) fs (checkF env fs)
  | [] => .nil
  | (k, p) :: fs => .cons ⟨rfl, check_sound hG p⟩ (checkF_sound hG fs)
end

/-! ## From labels to types -/

theorem determineAll_get {env : Env} {h : Heap} {d : LDict} {σ : PyDict String (Option CType)}
    (he : determineAll env h d = .ok σ) {l : String} {ref : Nat} (hl : d.get? l = some ref) :
    ∃ ld t, h[ref]? = some ld ∧ determine env ld = .ok t ∧ σ.get? l = some t := by
  induction d generalizing σ with
  | nil => simp [PyDict.get?] at hl
  | cons kr d ih =>
    obtain ⟨k, r⟩ := kr
    rw [determineAll] at he
    cases h1 : h[r]? with
    | none => rw [h1] at he; cases he
    | some ld =>
      rw [h1] at he
      simp only at he
      cases h2 : determine env ld with
      | error e => rw [h2] at he; cases he
      | ok t =>
        rw [h2] at he
        simp only at he
        cases h3 : determineAll env h d with
        | error e => rw [h3] at he; cases he
        | ok σ' =>
          rw [h3] at he
          cases he
          rw [PyDict.get?_cons] at hl ⊢
          by_cases hk : k = l
          · rw [if_pos hk] at hl ⊢; cases hl; exact ⟨ld, t, h1, h2, rfl⟩
          · rw [if_neg hk] at hl ⊢; exact ih h3 hl

theorem determine_ok {env : Env} {ld : LD} {o : Option CType} (h : determine env ld = .ok o) :
    broadest env ld.members = .ok o := by
  unfold determine at h
  split at h
  · cases h
  · next hb =>
    rw [hb]
    split at h
    · exact h
    · split at h
      · split at h
        · exact h
        · cases h
      · cases h

/-- The type that label `l` stands for. -/
def Stands (σ : PyDict String (Option CType)) (l : String) (t : CType) : Prop := σ.get? l = some (some t)

/-- Each label stands for one type, and this type accepts all types the label met. -/
theorem labels_accept {env : Env} (he : env.Ok) {D} {d : LDict} {h : Heap} (hi : Inv (GoodC env D) d h)
    {σ : PyDict String (Option CType)} (hσ : determineAll env h d = .ok σ) {l : String} {a : CType} (hm : Met d h l a) :
    ∃ t, Stands σ l t ∧ Accepts env t a ∧ t ≠ .exc ∧ ((∃ u, a = .avro u) → ∃ u, t = .avro u) := by
  obtain ⟨ref, ld, h1, h2, h3⟩ := hm
  obtain ⟨ld', t, h4, h5, h6⟩ := determineAll_get hσ h1
  rw [h2] at h4; cases h4
  have hb := determine_ok h5
  have hg : ∀ c ∈ ld.members, c ≠ .exc ∧ GoodC env D c := hi.good ld (List.mem_of_getElem? h2)
  cases t with
  | none =>
    exfalso
    rcases broadest_partial he (fun c hc => (hg c hc).2) with ⟨t, ht, -⟩ | ht | ht | ⟨-, ht⟩
    · rw [hb] at ht; cases ht
    · rw [hb] at ht; cases ht
    · rw [hb] at ht; cases ht
    · exact (hg a h3).1 (ht a h3)
  | some t =>
    obtain ⟨b1, -, b3⟩ := broadest_accepts he (fun c hc => (hg c hc).2) hb
    have hacc := b1 a h3 (hg a h3).1
    refine ⟨t, h6, hacc, b3, ?_⟩
    rintro ⟨u, rfl⟩
    cases hacc
    exact ⟨_, rfl⟩

theorem wrapAvro_ok {f : AType → AType} {x : Res CType} {t : AType} (h : x = .ok (.avro t)) : wrapAvro f x = .ok (.avro (f t)) := by
  rw [h]; rfl

/-- A fitting argument is assigned a type that accepts it. -/
theorem assign_accepts {env : Env} (he : env.Ok) {D} {M : String → CType → Prop} {σ : PyDict String (Option CType)}
    (hσ : ∀ l a, M l a → ∃ t, Stands σ l t ∧ Accepts env t a ∧ t ≠ .exc ∧ ((∃ u, a = .avro u) → ∃ u, t = .avro u))
    {p a s r} (hf : Fits env M p a s r) (hr : r = false) (hg : GoodC env D a) :
    ∃ t, assign σ p a = .ok t ∧ Accepts env t a ∧ ((∃ u, a = .avro u) → ∃ u, t = .avro u) := by
  have self : ∀ {p : Pat} {a : CType}, GoodC env D a → assign σ p a = .ok a →
      ∃ t, assign σ p a = .ok t ∧ Accepts env t a ∧ ((∃ u, a = .avro u) → ∃ u, t = .avro u) :=
    fun hg h => ⟨_, h, Accepts.refl he hg, fun h => h⟩
  have lab : ∀ {l : String} {p : Pat} {a : CType}, M l a → assign σ p a = label σ l →
      ∃ t, assign σ p a = .ok t ∧ Accepts env t a ∧ ((∃ u, a = .avro u) → ∃ u, t = .avro u) := by
    intro l p a hm h
    obtain ⟨t, h1, h2, h3, h4⟩ := hσ l a hm
    refine ⟨t, ?_, h2, h4⟩
    rw [h, label]; rw [show σ.get? l = some (some t) from h1]
  induction hf with
  | @prim p t u s r h1 h2 =>
    subst hr
    obtain ⟨hfl, h2⟩ := h2
    have hacc : accepts [] [] t u = true ∨ u = t := by
      cases s <;> simp at h2
      · exact .inl h2
      · exact .inr h2
    cases p <;> simp only [Pat.prim, Option.some.injEq, reduceCtorEq] at h1 <;> subst h1 <;>
      cases u <;> first | (cases hfl; done) | (simp [accepts, acc, overUnion] at hacc; done) |
        exact ⟨_, rfl, .avro rfl, fun _ => ⟨_, rfl⟩⟩
  | @array p i s r _ ih =>
    have hgi : GoodC env D (.avro i) := by cases hg with | avro h => exact .avro h.array
    obtain ⟨t, h1, h2, h3⟩ := ih hr hgi
    obtain ⟨u, rfl⟩ := h3 ⟨i, rfl⟩
    cases h2 with
    | avro h2 => exact ⟨.avro (.array u), wrapAvro_ok h1, .avro h2, fun _ => ⟨_, rfl⟩⟩
  | @map p i s r _ ih =>
    have hgi : GoodC env D (.avro i) := by cases hg with | avro h => exact .avro h.map
    obtain ⟨t, h1, h2, h3⟩ := ih hr hgi
    obtain ⟨u, rfl⟩ := h3 ⟨i, rfl⟩
    cases h2 with
    | avro h2 => exact ⟨.avro (.map u), wrapAvro_ok h1, .avro h2, fun _ => ⟨_, rfl⟩⟩
  | union _ _ _ _ _ _ => exact self hg rfl
  | member _ _ _ _ => exact self hg rfl
  | fixedName => exact self hg rfl
  | fixedSize => exact self hg rfl
  | enumName => exact self hg rfl
  | enumSyms => exact self hg rfl
  | recordName => exact self hg rfl
  | recordFields _ _ _ _ _ => exact self hg rfl
  | fcn _ _ _ _ => exact self hg rfl
  | wild _ _ hm => exact lab hm (by simp [assign])
  | wildRecord _ hm _ _ _ => exact lab hm (by simp [assign])
  | wildEnum _ hm => exact lab hm (by simp [assign])
  | wildFixed _ hm => exact lab hm (by simp [assign])
  | enumFields hm => exact lab hm (by simp [assign])

/-! ## The result type -/

mutual
/-- The pattern with its labels replaced by the types they stand for. -/
def Inst (σ : PyDict String (Option CType)) : Pat → CType → Prop
  | .null, t => t = .avro .null
  | .boolean, t => t = .avro .boolean
  | .int, t => t = .avro .int
  | .long, t => t = .avro .long
  | .float, t => t = .avro .float
  | .double, t => t = .avro .double
  | .bytes, t => t = .avro .bytes
  | .string, t => t = .avro .string
  | .array p, t => ∃ i, t = .avro (.array i) ∧ Inst σ p (.avro i)
  | .map p, t => ∃ i, t = .avro (.map i) ∧ Inst σ p (.avro i)
  | .union ps, t => ∃ ts, t = .avro (.union ts) ∧ InstL σ ps ts
  | .fixed k n, t => ∃ m, n = some m ∧ t = .avro (.fixed m k)
  | .enum k n, t => ∃ m, n = some m ∧ t = .avro (.enum m k)
  | .record _ n, t => ∃ m, n = some m ∧ t = .avro (.record m)
  | .fcn _ _, _ => False
  | .wild l _, t => Stands σ l t
  | .wildRecord l _, t => Stands σ l t
  | .wildEnum l, t => Stands σ l t
  | .wildFixed l, t => Stands σ l t
  | .enumFields l _, t => Stands σ l t
@[inherit_doc Inst] def InstL (σ : PyDict String (Option CType)) : List Pat → List AType → Prop
  | [], ts => ts = []
  | p :: ps, ts => ∃ t ts', ts = t :: ts' ∧ Inst σ p (.avro t) ∧ InstL σ ps ts'
end

theorem label_ok {σ : PyDict String (Option CType)} {l : String} {t : CType} (h : label σ l = .ok t) : Stands σ l t := by
  unfold label at h
  unfold Stands
  split at h <;> cases h
  assumption

theorem wrapAvro_inv {f : AType → AType} {x : Res CType} {t : CType} (h : wrapAvro f x = .ok t) :
    ∃ i, x = .ok (.avro i) ∧ t = .avro (f i) := by
  cases x with
  | error e => cases h
  | ok c => cases c <;> cases h; exact ⟨_, rfl, rfl⟩

mutual
theorem assignRet_inst (σ : PyDict String (Option CType)) : ∀ (p : Pat) (t : CType), assignRet σ p = .ok t → Inst σ p t
  | .null, _, h | .boolean, _, h | .int, _, h | .long, _, h | .float, _, h | .double, _, h | .bytes, _, h | .string, _, h => by
    cases h; rfl
  | .array p, t, h => by
    obtain ⟨i, h1, h2⟩ := wrapAvro_inv h
    exact ⟨i, h2, assignRet_inst σ p _ h1⟩
  | .map p, t, h => by
    obtain ⟨i, h1, h2⟩ := wrapAvro_inv h
    exact ⟨i, h2, assignRet_inst σ p _ h1⟩
  | .union ps, t, h => by
    rw [assignRet] at h
    cases h1 : assignRetL σ ps with
    | error e => rw [h1] at h; cases h
    | ok ts =>
      rw [h1] at h
      simp only at h
      cases h2 : mkUnion ts with
      | error e => rw [h2] at h; cases h
      | ok u =>
        rw [h2] at h; cases h
        rw [(mkUnion_ok h2).1]
        exact ⟨ts, rfl, assignRetL_inst σ ps ts h1⟩
  | .fixed k (some m), _, h => by cases h; exact ⟨m, rfl, rfl⟩
  | .enum k (some m), _, h => by cases h; exact ⟨m, rfl, rfl⟩
  | .record _ (some m), _, h => by cases h; exact ⟨m, rfl, rfl⟩
  | .fixed _ none, _, h | .enum _ none, _, h | .record _ none, _, h | .fcn _ _, _, h => by cases h
  | .wild l _, _, h => label_ok h
  | .wildRecord l _, _, h => label_ok h
  | .wildEnum l, _, h => label_ok h
  | .wildFixed l, _, h => label_ok h
  | .enumFields l _, _, h => label_ok h
theorem assignRetL_inst (σ : PyDict String (Option CType)) : ∀ (ps : List Pat) (ts : List AType),
    assignRetL σ ps = .ok ts → InstL σ ps ts
  | [], _, h => by cases h; rfl
  | p :: ps, ts, h => by
    rw [assignRetL] at h
    cases h1 : assignRet σ p with
    | error e => rw [h1] at h; cases h
    | ok c =>
      rw [h1] at h
      cases c with
      | avro t =>
        simp only at h
        cases h2 : assignRetL σ ps with
        | error e => rw [h2] at h; cases h
        | ok ts' => rw [h2] at h; cases h; exact ⟨t, ts', rfl, assignRet_inst σ p _ h1, assignRetL_inst σ ps ts' h2⟩
      | exc => cases h
      | fcn _ _ => cases h
end

/-! ## C38 -/

/-- All field types of the table are types of the document. -/
def EnvGood (env : Env) (D : Name → Option AType) : Prop :=
  ∀ n fs, env.fields? n = some fs → ∀ f ∈ fs, Good env D f.type

theorem good_closed {env : Env} {D} (hE : EnvGood env D) : Closed env (GoodC env D) where
  array := fun _ h => by cases h with | avro h => exact .avro h.array
  map := fun _ h => by cases h with | avro h => exact .avro h.map
  union := fun _ h t ht => by cases h with | avro h => exact .avro (h.union.2 t ht).2
  record := fun n _ f hf => by
    cases hn : env.fields? n with
    | none => rw [hn] at hf; simp at hf
    | some fs => rw [hn] at hf; exact .avro (hE n fs hn f hf)
  fcn := fun _ _ h => by cases h with | fcn h1 h2 => exact ⟨h1, h2⟩

theorem assignAll_accepts {env : Env} (he : env.Ok) {D} {M : String → CType → Prop} {σ : PyDict String (Option CType)}
    (hσ : ∀ l a, M l a → ∃ t, Stands σ l t ∧ Accepts env t a ∧ t ≠ .exc ∧ ((∃ u, a = .avro u) → ∃ u, t = .avro u))
    {ps : List Pat} {as : List CType} (hf : List.Forall₂ (fun p a => Fits env M p a false false) ps as)
    (hg : ∀ a ∈ as, GoodC env D a) : ∃ ts, assignAll σ ps as = .ok ts ∧ List.Forall₂ (Accepts env) ts as := by
  induction hf with
  | nil => exact ⟨[], rfl, .nil⟩
  | @cons p a ps as h hf ih =>
    obtain ⟨t, h1, h2, -⟩ := assign_accepts he hσ h rfl (hg a (by simp))
    obtain ⟨ts, h3, h4⟩ := ih (fun a ha => hg a (by simp [ha]))
    exact ⟨t :: ts, by rw [assignAll, h1]; simp only [h3], .cons h2 h4⟩

/-- The call is within the lifespan of the signature. -/
def Alive (l : Lifespan) (v : Ver) : Prop := l.current v = true ∨ l.deprecated v = true

/-- C38, partial: if a signature accepts argument types, then it is alive, there is one argument for each
parameter, each reported parameter type accepts its argument type, all types met by a label are accepted
by the one type it stands for, and the reported result type is the pattern with the labels replaced.
What is missing is equal numbers of parameters for functions (`fcn_arity_violation`); in contravariant
position the type of the label accepts the type of the argument, not the other way round
(`contravariant_violation`). -/
theorem sig_accepts_partial {env : Env} (he : env.Ok) {D} (hE : EnvGood env D) {sig : Sig1} {args : List CType} {v : Ver}
    (hg : ∀ a ∈ args, GoodC env D a) {ts : List CType} {ret : CType} (h : sig.accepts env args v = .ok (some (ts, ret))) :
    Alive sig.life v ∧ ∃ (M : String → CType → Prop) (σ : PyDict String (Option CType)),
      List.Forall₂ (fun p a => Fits env M p.2 a false false) sig.params args ∧
      (∀ l a, M l a → ∃ t, Stands σ l t ∧ Accepts env t a) ∧
      List.Forall₂ (Accepts env) ts args ∧ Inst σ sig.ret ret := by
  unfold Sig1.accepts at h
  split at h
  · next hlife =>
    split at h
    · next hlen =>
      cases hall : allC (((checkL env (sig.params.map Prod.snd)).zip args).map (fun ca => ca.1 ca.2 false false)) [] [] with
      | error e => rw [hall] at h; cases h
      | ok res =>
        obtain ⟨b, d, hp⟩ := res
        rw [hall] at h
        cases b with
        | false => cases h
        | true =>
          simp only at h
          have hL := checkL_sound (good_closed hE) (sig.params.map Prod.snd)
          have hll := hL.length_eq
          rw [List.length_map] at hll
          have hsound : Sound (GoodC env D) (allC (((checkL env (sig.params.map Prod.snd)).zip args).map (fun ca => ca.1 ca.2 false false)))
              (fun d h => ∀ i < (((checkL env (sig.params.map Prod.snd)).zip args).map (fun ca => ca.1 ca.2 false false)).length,
                ∀ p a, sig.params[i]? = some p → args[i]? = some a → Fits env (Met d h) p.2 a false false) := by
            refine allC_sound (P := fun i d h => ∀ p a, sig.params[i]? = some p → args[i]? = some a → Fits env (Met d h) p.2 a false false) ?_ ?_
            · exact fun i d h d' h' e hq p a hp ha => (hq p a hp ha).mono (fun _ _ => e.met)
            · intro i c hc
              simp only [List.getElem?_map, Option.map_eq_some_iff] at hc
              obtain ⟨⟨c1, a1⟩, hca, rfl⟩ := hc
              rw [List.getElem?_zip_eq_some] at hca
              obtain ⟨hi, hic⟩ := List.getElem?_eq_some_iff.1 hca.1
              have hs := hL.get (by simp; omega) hi
              have : (checkL env (sig.params.map Prod.snd)).get ⟨i, hi⟩ = c1 := hic
              rw [this] at hs
              refine (hs a1 false false (hg _ (List.mem_of_getElem? hca.2))).imp (fun d h hfit p a hp ha => ?_)
              rw [hca.2] at ha; cases ha
              have hpe : (sig.params.map Prod.snd).get ⟨i, by simp; omega⟩ = p.2 := by
                have := (List.getElem?_eq_some_iff.1 hp).2
                simp [this]
              rw [hpe] at hfit; exact hfit
          have hinv0 : Inv (GoodC env D) [] [] := ⟨by simp [PyDict.WF, PyDict.keys], by simp [PyDict.get?], by simp⟩
          obtain ⟨hi, -, hfits⟩ := hsound [] [] true d hp hinv0 hall
          have hfits := hfits rfl
          have hfits : List.Forall₂ (fun p a => Fits env (Met d hp) p.2 a false false) sig.params args := by
            rw [List.forall₂_iff_get]
            refine ⟨hlen, fun i h1 h2 => ?_⟩
            refine hfits i (by simp; omega) _ _ ?_ ?_
            · simp
            · simp
          unfold finish at h
          cases hd : determineAll env hp d with
          | error e =>
            rw [hd] at h; simp only [orNone] at h; split at h <;> cases h
          | ok σ =>
            rw [hd] at h
            simp only at h
            have hlab := fun l a => labels_accept he hi hd (l := l) (a := a)
            have hfits' : List.Forall₂ (fun p a => Fits env (Met d hp) p a false false) (sig.params.map Prod.snd) args := by
              rw [List.forall₂_map_left_iff]; exact hfits
            obtain ⟨ts', h1, h2⟩ := assignAll_accepts he hlab hfits' hg
            rw [h1] at h
            simp only at h
            cases hr : assignRet σ sig.ret with
            | error e => rw [hr] at h; simp only [orNone] at h; split at h <;> cases h
            | ok r =>
              rw [hr] at h
              cases h
              refine ⟨by simpa [Alive] using hlife, Met d hp, σ, hfits, fun l a hm => ?_, h2, assignRet_inst σ _ _ hr⟩
              obtain ⟨t, x1, x2, -⟩ := hlab l a hm
              exact ⟨t, x1, x2⟩
    · cases h
  · cases h

/-- C38: of several signatures the first that accepts is used. -/
theorem sigs_first {env : Env} {ss : List Sig1} {args : List CType} {v : Ver} {s : Sig1} {r}
    (h : sigsAccept env ss args v = .ok (some (s, r))) :
    ∃ before after, ss = before ++ s :: after ∧ s.accepts env args v = .ok (some r) ∧
      ∀ s' ∈ before, s'.accepts env args v = .ok none := by
  induction ss with
  | nil => cases h
  | cons s0 ss ih =>
    rw [sigsAccept] at h
    cases h1 : s0.accepts env args v with
    | error e => rw [h1] at h; cases h
    | ok o =>
      rw [h1] at h
      cases o with
      | some r' => cases h; exact ⟨[], ss, rfl, h1, by simp⟩
      | none =>
        obtain ⟨b, a, rfl, h2, h3⟩ := ih h
        refine ⟨s0 :: b, a, rfl, h2, fun s' hs' => ?_⟩
        rcases List.mem_cons.1 hs' with rfl | hs'
        · exact h1
        · exact h3 s' hs'

/-- C38: a signature with a wrong number of arguments, or out of its lifespan, is never used. -/
theorem sig_refuses {env : Env} {sig : Sig1} {args : List CType} {v : Ver}
    (h : ¬ Alive sig.life v ∨ sig.params.length ≠ args.length) : sig.accepts env args v = .ok none := by
  unfold Sig1.accepts
  split
  · next hl =>
    rw [if_neg]
    rcases h with h | h
    · exact absurd (by simpa [Alive] using hl) h
    · exact h
  · rfl

/-! ## Calls of user-defined functions -/

/-- A type fits its own pattern only if it is accepted. -/
theorem fromType_fits {env : Env} (he : env.Ok) {D} {M : String → CType → Prop} : ∀ (k : Nat) (t : AType), sizeOf t ≤ k →
    Good env D t → ∀ (a : CType) (s : Bool), GoodC env D a → Fits env M (fromType t) a s false →
    ∃ u, a = .avro u ∧ accepts env env t u = true := by
  intro k
  induction k with
  | zero =>
    intro t hk
    have : 0 < sizeOf t := by cases t <;> simp <;> omega
    omega
  | succ k ih =>
    intro t hk hg a s hga hf
    have fl : ∀ ts : List AType, fromTypeL ts = ts.map fromType := by
      intro ts; induction ts with
      | nil => rfl
      | cons t ts ih => simp [fromTypeL, ih]
    have prim : ∀ {p : Pat} {t u : AType}, p.prim = some t → PrimFits t u s false → accepts env env t u = true := by
      intro p t u hp hpf
      obtain ⟨h1, h2⟩ := hpf
      have h2 : accepts [] [] t u = true ∨ u = t := by
        cases s <;> simp at h2
        · exact .inl h2
        · exact .inr h2
      cases p <;> simp only [Pat.prim, Option.some.injEq, reduceCtorEq] at hp <;> subst hp <;>
        cases u <;> first | (cases h1; done) | rfl | (simp [accepts, acc, overUnion] at h2; done)
    cases t with
    | union ts =>
      rw [fromType, fl] at hf
      have hts := hg.union
      cases hf with
      | prim h => cases h
      | @union _ us _ _ idx pat h1 h2 h3 =>
        refine ⟨_, rfl, ?_⟩
        have hus : ∀ u ∈ us, u.flat = true ∧ Good env D u := by
          cases hga with | avro h => exact h.union.2
        refine accepts_of_parts (x := .union us) (fun u hu => ?_) (fun u hu => (hus u hu).1)
        obtain ⟨i, hi, rfl⟩ := List.getElem_of_mem hu
        have hp := h2 i hi
        rw [List.getElem?_map, Option.map_eq_some_iff] at hp
        obtain ⟨t', ht', hpt⟩ := hp
        have hm := List.mem_of_getElem? ht'
        have hfit := h3 i us[i] (List.getElem?_eq_getElem hi)
        rw [← hpt] at hfit
        obtain ⟨u', hu', hacc⟩ := ih t' (by have := sizeOf_mem_union hm; omega) (hts.2 t' hm).2 _ true (.avro (hus _ hu).2) hfit
        cases hu'
        exact (acc_union_flat _ _ _ (hus _ hu).1).2 ⟨t', hm, hacc⟩
      | member hp hfl hfit =>
        obtain ⟨t', ht', rfl⟩ := List.mem_map.1 hp
        obtain ⟨u, hu, hacc⟩ := ih t' (by have := sizeOf_mem_union ht'; omega) (hts.2 t' ht').2 _ s hga hfit
        cases hu
        exact ⟨_, rfl, (acc_union_flat _ _ _ hfl).2 ⟨t', ht', hacc⟩⟩
    | array i =>
      rw [fromType] at hf
      cases hf with
      | prim h => cases h
      | array hfit =>
        obtain ⟨u, hu, hacc⟩ := ih i (by simp at hk; omega) hg.array _ s (by cases hga with | avro h => exact .avro h.array) hfit
        cases hu
        exact ⟨_, rfl, hacc⟩
    | map i =>
      rw [fromType] at hf
      cases hf with
      | prim h => cases h
      | map hfit =>
        obtain ⟨u, hu, hacc⟩ := ih i (by simp at hk; omega) hg.map _ s (by cases hga with | avro h => exact .avro h.map) hfit
        cases hu
        exact ⟨_, rfl, hacc⟩
    | fixed n size =>
      rw [fromType] at hf
      cases hf with
      | prim h => cases h
      | fixedName =>
        cases hga with
        | avro h =>
          have e1 := h.decl
          have e2 := hg.decl
          simp only [Declared] at e1 e2
          rw [e1] at e2
          cases e2
          exact ⟨_, rfl, accepts_refl he _ hg.known⟩
    | enum n syms =>
      rw [fromType] at hf
      cases hf with
      | prim h => cases h
      | enumName =>
        cases hga with
        | avro h =>
          have e1 := h.decl
          have e2 := hg.decl
          simp only [Declared] at e1 e2
          rw [e1] at e2
          cases e2
          exact ⟨_, rfl, accepts_refl he _ hg.known⟩
    | record n =>
      rw [fromType] at hf
      cases hf with
      | prim h => cases h
      | recordName => exact ⟨_, rfl, accepts_refl he _ hg.known⟩
    | _ =>
      rw [fromType] at hf
      cases hf with
      | prim h1 h2 => have h3 := prim h1 h2; cases h1; exact ⟨_, rfl, h3⟩

/-- C38: a call of a user-defined function passes the check only if each declared parameter type accepts
its argument type. -/
theorem user_call_sound {env : Env} (he : env.Ok) {D} (hE : EnvGood env D) {params : List (String × AType)} {ret : AType}
    (hp : ∀ p ∈ params, Good env D p.2) {args : List CType} {v : Ver} (hg : ∀ a ∈ args, GoodC env D a) {res}
    (h : (userSig params ret).accepts env args v = .ok (some res)) :
    List.Forall₂ (fun p a => Accepts env (.avro p.2) a) params args := by
  obtain ⟨ts, r⟩ := res
  obtain ⟨-, M, σ, hf, -⟩ := sig_accepts_partial he hE hg h
  simp only [userSig, List.forall₂_map_left_iff] at hf
  rw [List.forall₂_iff_get] at hf ⊢
  refine ⟨hf.1, fun i h1 h2 => ?_⟩
  obtain ⟨u, hu, hacc⟩ := fromType_fits he _ _ (Nat.le_refl _) (hp _ (List.get_mem _ _)) _ false (hg _ (List.get_mem _ _)) (hf.2 i h1 h2)
  rw [hu]; exact .avro hacc

/-! ## Violations -/

/-- C38 in full: in addition to `sig_accepts_partial`, a function argument has as many parameters as its
pattern. -/
def ArityOk : Pat → CType → Prop
  | .fcn ps _, .fcn qs _ => ps.length = qs.length
  | _, _ => True

/-- `a.map(array, fcn)` and the like: `(x: array of A, fcn: (A) -> B) -> array of B`. -/
def mapSig : Sig1 := ⟨[("x", .array (.wild "A" none)), ("fcn", .fcn [.wild "A" none] (.wild "B" none))], .array (.wild "B" none), ⟨none, none, none⟩⟩

/-- A function of two parameters, or of none, is accepted where one of one parameter is required. -/
theorem fcn_arity_violation :
    mapSig.accepts [] [.avro (.array .int), .fcn [.avro .int, .avro .string] (.avro .double)] ⟨0, 8, 1⟩ =
      .ok (some ([.avro (.array .int), .fcn [.avro .int, .avro .string] (.avro .double)], .avro (.array .double))) ∧
    mapSig.accepts [] [.avro (.array .int), .fcn [] (.avro .double)] ⟨0, 8, 1⟩ =
      .ok (some ([.avro (.array .int), .fcn [] (.avro .double)], .avro (.array .double))) ∧
    ¬ (∀ p a, (p, a) ∈ mapSig.params.zip [CType.avro (.array .int), .fcn [] (.avro .double)] → ArityOk p.2 a) := by
  refine ⟨by decide +kernel, by decide +kernel, fun h => ?_⟩
  have := h _ _ (List.mem_cons_of_mem _ (List.mem_cons_self ..))
  simp [ArityOk] at this

/-- A function on integers is accepted for an array of doubles. -/
theorem contravariant_violation :
    mapSig.accepts [] [.avro (.array .double), .fcn [.avro .int] (.avro .string)] ⟨0, 8, 1⟩ =
      .ok (some ([.avro (.array .double), .fcn [.avro .int] (.avro .string)], .avro (.array .string))) ∧
    accepts [] [] .int .double = false := by decide +kernel

/-- `enum.toString` accepts an integer. -/
theorem wildEnum_violation :
    (Sig1.mk [("x", .wildEnum "A")] .string ⟨none, none, none⟩).accepts [] [.avro .int] ⟨0, 8, 1⟩ =
      .ok (some ([.avro .int], .avro .string)) := by decide +kernel

/-- The check of a call may raise AvroException instead of refusing the arguments. -/
theorem sig_raises_violation :
    (Sig1.mk [("x", .wild "A" none), ("y", .wild "A" none)] .boolean ⟨none, none, none⟩).accepts []
      [.avro (.union [.array .string, .null]), .avro (.array .int)] ⟨0, 8, 1⟩ = .error .avro := by decide +kernel

/-- Members of unions are matched strictly, so a user-defined function of a union of double and null refuses a
union of integer and null, which its parameter type accepts. -/
theorem user_call_incomplete :
    (userSig [("x", .union [.double, .null])] .null).accepts [] [.avro (.union [.int, .null])] ⟨0, 8, 1⟩ = .ok none ∧
    accepts [] [] (.union [.double, .null]) (.union [.int, .null]) = true := by decide +kernel

example : mapSig.accepts [] [.avro (.array .int), .fcn [.avro .double] (.avro .string)] ⟨0, 8, 1⟩ =
    .ok (some ([.avro (.array .double), .fcn [.avro .double] (.avro .string)], .avro (.array .string))) := by decide +kernel
example : mapSig.accepts [] [.avro (.array .int), .fcn [.avro .string] (.avro .string)] ⟨0, 8, 1⟩ =
    .ok (some ([.avro (.array (.union [.int, .string])), .fcn [.avro .string] (.avro .string)], .avro (.array .string))) := by
  decide +kernel

end Verif.Sig
