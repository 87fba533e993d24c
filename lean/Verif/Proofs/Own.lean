import Verif.Spec.Own
import Verif.Proofs.Field
import Verif.Props.C02
import Verif.Props.C05
import Verif.Props.C12
import Verif.Props.C44
import Verif.Props.C54
import Verif.Props.C06

/-! # The schema of one datum accepts just that datum -/

namespace Cddl

open Ast (Ty1 Ty2 GrpEnt)

section Node
variable {env : Env} {c : Ctx}

/-- `kn` accepts `k` and nothing else. -/
def Only (env : Env) (c : Ctx) (kn : Node) (k : Value) : Prop := ∀ u : Value, u.WF → (Accepts env c kn u ↔ u = k)

theorem search_only {f : Value → Res Unit} {msg : String} {k : Value} {m : VMap} (hf : ∀ p ∈ m, f p.1 = .ok () ↔ p.1 = k)
    (hr : ∀ p ∈ m, f p.1 ≠ .fuel ∧ f p.1 ≠ .panic) :
    (∀ q, mapSearchLoop f msg m = .ok q → q ∈ m ∧ q.1 = k) ∧ (∀ v, (k, v) ∈ m → ∃ v', mapSearchLoop f msg m = .ok (k, v')) := by
  induction m with
  | nil => exact ⟨(fun q h => by cases h), (fun v hv => by cases hv)⟩
  | cons p m ih =>
    obtain ⟨a, b⟩ := p
    simp only [List.forall_mem_cons] at hf hr
    obtain ⟨ih1, ih2⟩ := ih hf.2 hr.2
    simp only [mapSearchLoop]
    cases hfa : f a with
    | ok u =>
      have := hf.1.mp hfa
      subst this
      refine ⟨fun q h => ?_, fun v _ => ⟨b, rfl⟩⟩
      cases h
      simp
    | err e =>
      refine ⟨fun q h => ?_, fun v hv => ?_⟩
      · obtain ⟨h1, h2⟩ := ih1 q h
        exact ⟨by simp [h1], h2⟩
      · rcases List.mem_cons.mp hv with h | h
        · cases h
          have := hf.1.mpr rfl
          rw [hfa] at this; cases this
        · exact ih2 v h
    | panic => exact absurd hfa hr.1.2
    | fuel => exact absurd hfa hr.1.1

theorem own_literal_or (v : Value) : (∃ l : Literal, v.own = .literal l ∧ l.toValue = v) ∨
    ∀ (w : WMap) (c : Ctx), validateMapKey env (lim env) v.own w c = mapSearch env (lim env) v.own w c := by
  cases v with
  | null => exact .inr fun _ _ => rfl
  | bool b => exact .inl ⟨.bool b, rfl, rfl⟩
  | integer i => exact .inl ⟨.int i, rfl, rfl⟩
  | float f => exact .inl ⟨.float f, rfl, rfl⟩
  | bytes b => exact .inl ⟨.bytes b, rfl, rfl⟩
  | text s => exact .inl ⟨.text s, rfl, rfl⟩
  | array xs => exact .inr fun _ _ => by simp only [Value.own, validateMapKey]
  | map m => exact .inr fun _ _ => by simp only [Value.own, validateMapKey]

theorem key_only (hc : CtxOK c) {k : Value} (hk : Only env c k.own k) {w : WMap} (hw : VMap.PW w.map) (hwf : ∀ p ∈ w.map, p.1.WF) :
    (∀ q, validateMapKey env (lim env) k.own w c = .ok q → q ∈ w.map ∧ q.1 = k) ∧
    (∀ v, (k, v) ∈ w.map → validateMapKey env (lim env) k.own w c = .ok (k, v)) := by
  rcases own_literal_or (env := env) k with ⟨l, e, el⟩ | e
  · rw [e]
    simp only [validateMapKey, mapSearchLiteral]
    refine ⟨fun q h => ?_, fun v hv => ?_⟩
    · cases hg : VMap.get w.map l.toValue with
      | none => rw [hg] at h; cases h
      | some v => rw [hg] at h; cases h; exact ⟨(VMap.get_some hw).mp hg, el⟩
    · rw [el, (VMap.get_some hw).mpr hv]
  · rw [e]
    unfold mapSearch
    obtain ⟨h1, h2⟩ := search_only (f := fun key => (lim env).val key k.own c)
      (msg := "map{" ++ k.own.display env.fmtF64 ++ "}") (k := k) (m := w.map) (fun p hp => hk p.1 (hwf p hp))
      (fun p hp => ⟨lim_val_returns env p.1 k.own hc, fun h => by
        have := (lim_good (OkErr.triv env)).val p.1 k.own c (hwf p hp)
        rw [h] at this
        exact this⟩)
    refine ⟨h1, fun v hv => ?_⟩
    obtain ⟨v', h3⟩ := h2 v hv
    rw [h3]
    have := (h1 _ h3).1
    rw [hw.key_unique this hv]

theorem map_only (hc : CtxOK c) {m : VMap} (hk : ∀ p ∈ m, Only env c p.1.own p.1) (hv : ∀ p ∈ m, Only env c p.2.own p.2)
    (hm : VMap.PW m) : ∀ w : WMap, VMap.PW w.map → (∀ p ∈ w.map, p.1.WF ∧ p.2.WF) →
    ((∃ w', seqLoopS (fun n w => (lim env).map n w c) (Value.ownM m) w = .ok w' ∧ w'.map = []) ↔ w.map = m) := by
  induction m with
  | nil => intro w _ _; simp [Value.ownM, seqLoopS]
  | cons p m ih =>
    obtain ⟨k, v⟩ := p
    intro w hw hwf
    simp only [List.forall_mem_cons] at hk hv
    have hkk := key_only hc hk.1 hw fun p hp => (hwf p hp).1
    simp only [Value.ownM, seqLoopS]
    have hkv : (lim env).map (.keyValue k.own v.own false) w c = validateMapKeyvalue env (lim env) k.own v.own false w c := by
      rw [map_eq]; rfl
    simp only [hkv]
    have hwo : ∀ q ∈ w.map.without k, q.1.WF ∧ q.2.WF := fun q hq => hwf q (VMap.mem_without.mp hq).1
    have hrem : (k, v) ∈ w.map → (w.map.without k = m ↔ w.map = (k, v) :: m) := by
      intro hmem
      constructor
      · intro e
        refine hw.ext hm fun q => ?_
        rw [List.mem_cons, ← e, VMap.mem_without]
        constructor
        · intro hq
          by_cases hqk : q.1 = k
          · left
            obtain ⟨a, b⟩ := q
            dsimp only at hqk
            subst hqk
            rw [hw.key_unique hq hmem]
          · exact .inr ⟨hq, hqk⟩
        · rintro (rfl | ⟨hq, -⟩)
          · exact hmem
          · exact hq
      · intro e
        refine (hw.without k).ext hm.tail fun q => ?_
        rw [VMap.mem_without, e, List.mem_cons]
        constructor
        · rintro ⟨rfl | h, h'⟩
          · exact absurd rfl h'
          · exact h
        · intro h
          refine ⟨.inr h, fun h' => ?_⟩
          have := hm.head h
          rw [h', Value.cmp_refl] at this
          cases this
    have hstep : (k, v) ∈ w.map → ∃ w', validateMapKeyvalue env (lim env) k.own v.own false w c = .ok w' ∧
        w'.map = w.map.without k := by
      intro hmem
      have ha : (lim env).val v v.own c = .ok () := (hv.1 v (hwf _ hmem).2).mpr rfl
      simp only [validateMapKeyvalue, hkk.2 v hmem, ha, WMap.remove, VMap.remove_some hw hmem]
      cases w.snaps <;> exact ⟨_, rfl, rfl⟩
    constructor
    · rintro ⟨w', h1, h2⟩
      have hmem : (k, v) ∈ w.map := by
        cases hq : validateMapKey env (lim env) k.own w c with
        | ok q =>
          obtain ⟨h3, h4⟩ := hkk.1 q hq
          obtain ⟨a, b⟩ := q
          dsimp only at h4
          subst h4
          cases hb : (lim env).val b v.own c with
          | ok u =>
            have := (hv.1 b (hwf _ h3).2).mp hb
            rw [this] at h3; exact h3
          | err e =>
            simp only [validateMapKeyvalue, hq, hb] at h1
            cases h1
          | panic => simp only [validateMapKeyvalue, hq, hb] at h1; cases h1
          | fuel => simp only [validateMapKeyvalue, hq, hb] at h1; cases h1
        | err e => simp only [validateMapKeyvalue, hq] at h1; cases h1
        | panic => simp only [validateMapKeyvalue, hq] at h1; cases h1
        | fuel => simp only [validateMapKeyvalue, hq] at h1; cases h1
      obtain ⟨w1, e1, e2⟩ := hstep hmem
      rw [e1] at h1
      refine (hrem hmem).mp ?_
      rw [← e2]
      exact (ih hk.2 hv.2 hm.tail w1 (e2 ▸ hw.without k) (e2 ▸ hwo)).mp ⟨w', h1, h2⟩
    · intro e
      have hmem : (k, v) ∈ w.map := by rw [e]; simp
      obtain ⟨w1, e1, e2⟩ := hstep hmem
      rw [e1]
      exact (ih hk.2 hv.2 hm.tail w1 (e2 ▸ hw.without k) (e2 ▸ hwo)).mpr (e2.trans ((hrem hmem).mpr e))

theorem own_single (v : Value) : Single env c v.own := by
  cases v <;> simp only [Value.own] <;> constructor

theorem literal_only (l : Literal) : Only env c (.literal l) l.toValue := by
  intro u _
  have h := C05_literal env c l
  constructor
  · intro hu
    exact C05_unique env c l u l.toValue hu ((h _).1.mpr (by cases l <;> simp [Denotes, Literal.toValue]))
  · rintro rfl
    exact (h _).1.mpr (by cases l <;> simp [Denotes, Literal.toValue])

mutual
theorem own_only (hc : CtxOK c) : ∀ v : Value, v.WF → Only env c v.own v
  | .null, _ => by
    intro u _
    unfold Accepts validate
    rw [val_eq]
    cases u <;> simp [Value.own, valBody, validatePreludeType]
  | .bool b, _ => literal_only (.bool b)
  | .integer i, _ => literal_only (.int i)
  | .float f, _ => literal_only (.float f)
  | .bytes b, _ => literal_only (.bytes b)
  | .text s, _ => literal_only (.text s)
  | .array xs, h => by
    intro u hu
    rw [Value.own, C12_record env c _ (Value.ownL xs) u (own_entries xs)]
    constructor
    · rintro ⟨ys, rfl, h2⟩
      rw [(own_onlyL hc xs h ys hu).mp h2]
    · rintro rfl
      exact ⟨xs, rfl, (own_onlyL hc xs h xs h).mpr rfl⟩
  | .map m, h => by
    intro u hu
    rw [Value.own, map_accepts]
    have key := map_only hc (fun p hp => (own_onlyM hc m h.2 p hp).1) (fun p hp => (own_onlyM hc m h.2 p hp).2)
      ((VMap.sorted_iff m).mp h.1)
    constructor
    · rintro ⟨m', rfl, h2⟩
      rw [← (key (WMap.new m') ((VMap.sorted_iff m').mp hu.1) ((Value.WFMap_iff m').mp hu.2)).mp h2]
      rfl
    · rintro rfl
      exact ⟨m, rfl, (key (WMap.new m) ((VMap.sorted_iff m).mp hu.1) ((Value.WFMap_iff m).mp hu.2)).mpr rfl⟩
theorem own_entries : ∀ xs : List Value, All2 (Entry env c) (Value.ownL xs) (Value.ownL xs)
  | [] => .nil
  | x :: xs => .cons (.plain (own_single x)) (own_entries xs)
theorem own_onlyL (hc : CtxOK c) : ∀ xs : List Value, Value.WFArr xs → ∀ ys : List Value, Value.WFArr ys →
    (All2 (fun t x => Accepts env c t x) (Value.ownL xs) ys ↔ ys = xs)
  | [], _, ys, _ => by
    constructor
    · intro h; cases h; rfl
    · rintro rfl; exact .nil
  | x :: xs, h, ys, hy => by
    cases ys with
    | nil =>
      constructor
      · intro h; cases h
      · intro h; cases h
    | cons y ys =>
      have h1 := own_only hc x h.1 y hy.1
      have h2 := own_onlyL hc xs h.2 ys hy.2
      rw [Value.ownL]
      constructor
      · intro h
        cases h with
        | cons ha hb => rw [h1.mp ha, h2.mp hb]
      · intro h
        cases h
        exact .cons (h1.mpr rfl) (h2.mpr rfl)
theorem own_onlyM (hc : CtxOK c) : ∀ m : List (Value × Value), Value.WFMap m →
    ∀ p ∈ m, Only env c p.1.own p.1 ∧ Only env c p.2.own p.2
  | [], _, _, hp => by cases hp
  | (k, v) :: m, h, p, hp => by
    rcases List.mem_cons.mp hp with rfl | hp
    · exact ⟨own_only hc k h.1, own_only hc v h.2.1⟩
    · exact own_onlyM hc m h.2.2 p hp
end

end Node

/-! ## As a text -/

section Text
variable {x : ParseExt} {p : PrintExt} {rx : String → Bool}

mutual
theorem ownTy_ok : ∀ v : Value, v.Spelled x p → OkTy2 x p v.ownTy
  | .null, _ => by
    simp only [Value.ownTy, OkTy2, OkTy1s, and_true]
    exact ident_of (by unfold EAlpha; decide) (by unfold EAlpha Digit; decide)
  | .bool true, _ => by
    simp only [Value.ownTy, OkTy2, OkTy1s, and_true]
    exact ident_of (by unfold EAlpha; decide) (by unfold EAlpha Digit; decide)
  | .bool false, _ => by
    simp only [Value.ownTy, OkTy2, OkTy1s, and_true]
    exact ident_of (by unfold EAlpha; decide) (by unfold EAlpha Digit; decide)
  | .integer i, h => by
    simp only [Value.Spelled] at h
    simp only [Value.ownTy, OkTy2]
    split
    · simp only [OkValue]; omega
    · simp only [OkValue]; omega
  | .float f, h => by simpa only [Value.ownTy, OkTy2, Value.Spelled] using h
  | .bytes b, _ => by simp only [Value.ownTy, OkTy2, OkValue]
  | .text s, h => by simpa only [Value.ownTy, OkTy2, Value.Spelled] using h
  | .array xs, h => by
    simp only [Value.ownTy, OkTy2, OkGroup, and_true]
    exact ⟨by simp, ownTyL_ok xs (by simpa only [Value.Spelled] using h)⟩
  | .map m, h => by
    simp only [Value.ownTy, OkTy2, OkGroup, and_true]
    exact ⟨by simp, ownTyM_ok m (by simpa only [Value.Spelled] using h)⟩
theorem ownTyL_ok : ∀ xs : List Value, Value.SpelledL x p xs → OkChoice x p (Value.ownTyL xs)
  | [], _ => by simp only [Value.ownTyL, OkChoice]
  | v :: vs, h => by
    simp only [Value.SpelledL] at h
    simp only [Value.ownTyL, OkChoice, OkEntry, OkVal, OkTy1s, OkTy1, and_true]
    exact ⟨⟨by simp, ownTy_ok v h.1⟩, ownTyL_ok vs h.2⟩
theorem ownTyM_ok : ∀ m : List (Value × Value), Value.SpelledM x p m → OkChoice x p (Value.ownTyM m)
  | [], _ => by simp only [Value.ownTyM, OkChoice]
  | (k, v) :: m, h => by
    simp only [Value.SpelledM] at h
    simp only [Value.ownTyM, OkChoice, OkEntry, OkVal, OkTy1s, OkTy1, and_true]
    exact ⟨⟨ownTy_ok k h.1, by simp, ownTy_ok v h.2.1⟩, ownTyM_ok m h.2.2⟩
end

mutual
theorem ownTy_flat : ∀ v : Value, v.Spelled x p → flattenTy2 rx v.ownTy = .ok v.own
  | .null, _ => by
    rw [Value.ownTy, flattenTy2]
    exact nameGeneric_prelude (s := "nil") (n := .prelude .nil) (by simp [preludeTable])
  | .bool true, _ => by
    rw [Value.ownTy, flattenTy2]
    exact nameGeneric_prelude (s := "true") (n := .literal (.bool true)) (by simp [preludeTable])
  | .bool false, _ => by
    rw [Value.ownTy, flattenTy2]
    exact nameGeneric_prelude (s := "false") (n := .literal (.bool false)) (by simp [preludeTable])
  | .integer i, h => by
    simp only [Value.Spelled] at h
    rw [Value.ownTy, flattenTy2]
    split
    · rename_i h0
      rw [flattenValue, numToI128, if_pos (by omega)]
      simp only [Res.bind, Value.own]
      rw [Int.toNat_of_nonneg h0]
    · rw [flattenValue, numToI128, if_pos (by omega)]
      rfl
  | .float f, h => by rw [Value.ownTy, flattenTy2]; rfl
  | .bytes b, _ => by rw [Value.ownTy, flattenTy2]; rfl
  | .text s, h => by rw [Value.ownTy, flattenTy2]; rfl
  | .array xs, h => by
    rw [Value.ownTy, flattenTy2, flattenGroup, ownTyL_flat xs (by simpa only [Value.Spelled] using h)]
    simp only [Res.bind, flattenGroupOptions, List.isEmpty_nil, if_true, Value.own]
  | .map m, h => by
    rw [Value.ownTy, flattenTy2, flattenGroup, ownTyM_flat m (by simpa only [Value.Spelled] using h)]
    simp only [Res.bind, flattenGroupOptions, List.isEmpty_nil, if_true, Value.own]
theorem ownTyL_flat : ∀ xs : List Value, Value.SpelledL x p xs → flattenGroupchoice rx (Value.ownTyL xs) = .ok (Value.ownL xs)
  | [], _ => by rw [Value.ownTyL, flattenGroupchoice, Value.ownL]
  | v :: vs, h => by
    simp only [Value.SpelledL] at h
    rw [Value.ownTyL, flattenGroupchoice, flattenGroupentry, flattenGroupentryVal, flattenTy1s, flattenTy1, ownTy_flat v h.1,
      ownTyL_flat vs h.2]
    simp only [flattenTy1s, Res.bind, typeOfOptions, occurWrap, Value.ownL, List.length_cons, List.length_nil]
    simp
theorem ownTyM_flat : ∀ m : List (Value × Value), Value.SpelledM x p m →
    flattenGroupchoice rx (Value.ownTyM m) = .ok (Value.ownM m)
  | [], _ => by rw [Value.ownTyM, flattenGroupchoice, Value.ownM]
  | (k, v) :: m, h => by
    simp only [Value.SpelledM] at h
    rw [Value.ownTyM, flattenGroupchoice, flattenGroupentry, flattenGroupentryVal, flattenMemberkey, flattenTy1, flattenTy1s,
      flattenTy1, ownTy_flat k h.1, ownTy_flat v h.2.1, ownTyM_flat m h.2.2]
    simp only [flattenTy1s, Res.bind, typeOfOptions, occurWrap, Value.ownM, List.length_cons, List.length_nil]
    simp
end

theorem own_text {l : Libs} {name : String} {v : Value} (hn : Ident name.toList) (h : v.Spelled l.parse p) :
    flattenFromStr l (printCddl p (v.ownSchema name)) = .ok [(name, ⟨[], v.own⟩)] := by
  have ok : OkCddl l.parse p (v.ownSchema name) := by
    refine ⟨by simp [Value.ownSchema], fun r hr => ?_⟩
    rw [List.mem_singleton.1 hr]
    refine ⟨hn, by simp, by simp, ?_⟩
    simp only [OkTy1s, OkTy1, and_true]
    exact ownTy_ok v h
  unfold flattenFromStr
  rw [C42_roundtrip ok]
  simp only [Res.bind, flatten, Value.ownSchema, collectRes, flattenRule, flattenType, flattenTy1s, flattenTy1, ownTy_flat v h]
  simp [typeOfOptions]

theorem own_choice_text {l : Libs} {name : String} {v : Value} {vs : List Value} (hn : Ident name.toList)
    (h : ∀ u ∈ v :: vs, u.Spelled l.parse p) :
    flattenFromStr l (printCddl p (Value.ownChoice name (v :: vs))) =
      .ok [(name, ⟨[], if vs = [] then v.own else .choice (v.own :: vs.map Value.own)⟩)] := by
  have ok1 : ∀ us : List Value, (∀ u ∈ us, u.Spelled l.parse p) → OkTy1s l.parse p (us.map fun v => .simple v.ownTy) := by
    intro us
    induction us with
    | nil => intro _; simp only [List.map_nil, OkTy1s]
    | cons u us ih =>
      intro hu
      simp only [List.forall_mem_cons] at hu
      simp only [List.map_cons, OkTy1s, OkTy1]
      exact ⟨ownTy_ok u hu.1, ih hu.2⟩
  have flat1 : ∀ us : List Value, (∀ u ∈ us, u.Spelled l.parse p) →
      flattenTy1s l.regexOk (us.map fun v => .simple v.ownTy) = .ok (us.map Value.own) := by
    intro us
    induction us with
    | nil => intro _; simp only [List.map_nil, flattenTy1s]
    | cons u us ih =>
      intro hu
      simp only [List.forall_mem_cons] at hu
      simp only [List.map_cons, flattenTy1s, flattenTy1, ownTy_flat u hu.1, ih hu.2, Res.bind]
  have ok : OkCddl l.parse p (Value.ownChoice name (v :: vs)) := by
    refine ⟨by simp [Value.ownChoice], fun r hr => ?_⟩
    rw [List.mem_singleton.1 hr]
    exact ⟨hn, by simp, by simp, ok1 _ h⟩
  unfold flattenFromStr
  rw [C42_roundtrip ok]
  simp only [Res.bind, flatten, Value.ownChoice, collectRes, flattenRule, flattenType, flat1 _ h]
  cases vs with
  | nil => simp [typeOfOptions]
  | cons u us => simp [typeOfOptions]

end Text

/-! ## Other data is a mismatch -/

/-- The plan of a schema without rules. -/
def noPlan : Plan := ⟨fun _ => [], fun _ => [], fun _ => 0, 0, false, false⟩

mutual
theorem own_tidy (P : Site) (u : Purpose) (hu : u = .type ∨ u = .entry) : ∀ v : Value, v.own.tidy noPlan P u = true
  | .null => by rcases hu with rfl | rfl <;> rfl
  | .bool _ => by rcases hu with rfl | rfl <;> rfl
  | .integer _ => by rcases hu with rfl | rfl <;> rfl
  | .float _ => by rcases hu with rfl | rfl <;> rfl
  | .bytes _ => by rcases hu with rfl | rfl <;> rfl
  | .text _ => by rcases hu with rfl | rfl <;> rfl
  | .array xs => by
    have := own_tidyL (P.enter noPlan) xs
    rcases hu with rfl | rfl <;> simpa only [Value.own, Node.tidy] using this
  | .map m => by
    have := own_tidyM (P.enter noPlan) m
    rcases hu with rfl | rfl <;> simpa only [Value.own, Node.tidy] using this
theorem own_tidyL (P : Site) : ∀ xs : List Value, Node.tidyL noPlan P .entry (Value.ownL xs) = true
  | [] => rfl
  | x :: xs => by
    simp only [Value.ownL, Node.tidyL, own_tidy P .entry (.inr rfl) x, own_tidyL P xs, Bool.and_self]
theorem own_tidyM (P : Site) : ∀ m : List (Value × Value), Node.tidyL noPlan P .member (Value.ownM m) = true
  | [] => rfl
  | (k, v) :: m => by
    simp only [Value.ownM, Node.tidyL, Node.tidy, own_tidy P .type (.inl rfl) k, own_tidy P .type (.inl rfl) v, own_tidyM P m,
      Bool.and_self]
end

theorem own_answer {env : Env} (hl : ∀ s m, env.lookup s ≠ .error (.mapCut m)) {v w : Value} (hv : v.WF) (hw : w.WF)
    (h : w ≠ v) : ∃ m, validate env w v.own top = .err (.mismatch m) := by
  rcases C54_plan env hl noPlan (fun s u hu => by cases hu) v.own 0 (own_tidy _ _ (.inl rfl) v) w hw
    (.inr (by show 0 + 0 * _ ≤ 50; omega)) with h1 | h1 | ⟨h1, _⟩ | ⟨h1, _⟩
  · exact absurd ((own_only (c := top) rfl v hv w hw).mp h1) h
  · exact h1
  · cases h1
  · cases h1

theorem own_choice {env : Env} (hl : ∀ s m, env.lookup s ≠ .error (.mapCut m)) {vs : List Value} {w : Value}
    (hv : ∀ v ∈ vs, v.WF) (hw : w.WF) : Accepts env top (.choice (vs.map Value.own)) w ↔ w ∈ vs := by
  rw [C06_accepts]
  constructor
  · rintro ⟨pre, o, post, e, h, -⟩
    have : o ∈ vs.map Value.own := by rw [e]; simp
    obtain ⟨v, hm, rfl⟩ := List.mem_map.mp this
    rw [(own_only (c := top) rfl v (hv v hm) w hw).mp h]
    exact hm
  · intro hm
    induction vs with
    | nil => cases hm
    | cons v vs ih =>
      simp only [List.forall_mem_cons] at hv
      by_cases h : w = v
      · subst h
        exact ⟨[], _, _, rfl, (own_only (c := top) rfl w hw w hw).mpr rfl, by simp⟩
      · obtain ⟨pre, o, post, e, h1, h2⟩ := ih hv.2 (by simpa [h] using hm)
        obtain ⟨m, h3⟩ := own_answer hl hv.1 hw h
        refine ⟨v.own :: pre, o, post, by simp [e], h1, ?_⟩
        simp only [List.forall_mem_cons]
        exact ⟨⟨_, h3, rfl⟩, h2⟩

end Cddl
