import Verif.Proofs.Field
import Verif.Props.C14

/-! # C20  Wildcard maps -/

namespace Cddl

theorem mapSearchLoop_ok {f : Value → Res Unit} {msg : String} : ∀ {m : VMap} {p : Value × Value},
    mapSearchLoop f msg m = .ok p → p ∈ m ∧ f p.1 = .ok ()
  | [], _, h => by cases h
  | (k, v) :: t, p, h => by
    simp only [mapSearchLoop] at h
    cases hf : f k with
    | ok a => rw [hf] at h; cases h; exact ⟨by simp, hf⟩
    | err e =>
      rw [hf] at h
      obtain ⟨h1, h2⟩ := mapSearchLoop_ok h
      exact ⟨by simp [h1], h2⟩
    | panic => rw [hf] at h; cases h
    | fuel => rw [hf] at h; cases h

theorem literal_accepts {env : Env} {c : Ctx} {l : Literal} {v : Value} :
    Accepts env c (.literal l) v ↔ v = l.toValue := by
  unfold Accepts validate
  rw [val_eq]
  simp only [valBody, validateLiteral]
  rw [← Value.beq_iff]
  split <;> simp_all

/-- A key found by the search is accepted by the key type. -/
theorem mapKey_ok {env : Env} {c : Ctx} {k : Node} {w : WMap} (hw : VMap.PW w.map) {p : Value × Value}
    (h : validateMapKey env (lim env) k w c = .ok p) : p ∈ w.map ∧ Accepts env c k p.1 := by
  cases k with
  | literal l =>
    simp only [validateMapKey, mapSearchLiteral] at h
    cases hg : VMap.get w.map l.toValue with
    | none => rw [hg] at h; cases h
    | some v =>
      rw [hg] at h; cases h
      exact ⟨(VMap.get_some hw).mp hg, literal_accepts.mpr rfl⟩
  | _ => exact mapSearchLoop_ok h

/-- If the first key is accepted, the search finds it. -/
theorem mapKey_first {env : Env} {c : Ctx} {k : Node} {w : WMap} {p : Value × Value} {t : VMap}
    (hw : w.map = p :: t) (h : Accepts env c k p.1) : validateMapKey env (lim env) k w c = .ok p := by
  cases k with
  | literal l =>
    have := literal_accepts.mp h
    simp only [validateMapKey, mapSearchLiteral, hw, VMap.get, ← this, (Value.cmp_eq _ _).mpr rfl]
  | _ =>
    unfold Accepts validate at h
    simp only [validateMapKey, mapSearch, hw, mapSearchLoop, h]

theorem mapKey_empty {env : Env} {c : Ctx} {k : Node} {w : WMap} (hw : w.map = []) :
    ∃ m, validateMapKey env (lim env) k w c = .err (.mismatch m) := by
  cases k with
  | literal l => simp only [validateMapKey, mapSearchLiteral, hw, VMap.get]; exact ⟨_, rfl⟩
  | _ => simp only [validateMapKey, mapSearch, hw, mapSearchLoop]; exact ⟨_, rfl⟩

theorem without_length {m : VMap} (h : VMap.PW m) {k v : Value} (hk : (k, v) ∈ m) :
    (m.without k).length + 1 = m.length := by
  induction m with
  | nil => cases hk
  | cons p t ih =>
    by_cases hp : p.1 = k
    · have ht : ∀ v, (k, v) ∉ t := fun u hu => by
        have := h.head hu
        rw [hp] at this
        rw [(Value.cmp_eq _ _).mpr rfl] at this
        cases this
      have e : VMap.without (p :: t) k = VMap.without t k := by simp [VMap.without, hp]
      rw [e, VMap.without_eq_self ht]
      rfl
    · have hk' : (k, v) ∈ t := by
        rcases List.mem_cons.mp hk with rfl | hk
        · exact absurd rfl hp
        · exact hk
      have e : VMap.without (p :: t) k = p :: VMap.without t k := by simp [VMap.without, hp]
      rw [e, List.length_cons, ih h.tail hk', List.length_cons]

section
variable {env : Env} {c : Ctx} {k t : Node} {cut : Bool}

theorem wild_ok {w w' : WMap} (hw : VMap.PW w.map) (h : (lim env).map (.keyValue k t cut) w c = .ok w') :
    ∃ key v, (key, v) ∈ w.map ∧ Accepts env c k key ∧ Accepts env c t v ∧ w'.map = w.map.without key := by
  rw [keyValue_eq] at h
  simp only [validateMapKeyvalue] at h
  cases hk : validateMapKey env (lim env) k w c with
  | ok p =>
    obtain ⟨key, v⟩ := p
    obtain ⟨h1, h2⟩ := mapKey_ok hw hk
    rw [hk] at h
    dsimp only at h
    cases hv : (lim env).val v t c with
    | ok a =>
      rw [hv] at h
      refine ⟨key, v, h1, h2, hv, ?_⟩
      simp only [WMap.remove, VMap.remove_some hw h1] at h
      cases hs : w.snaps <;> rw [hs] at h <;> cases h <;> rfl
    | err e => rw [hv] at h; dsimp only at h; split at h <;> cases h
    | panic => rw [hv] at h; cases h
    | fuel => rw [hv] at h; cases h
  | err e => rw [hk] at h; cases h
  | panic => rw [hk] at h; cases h
  | fuel => rw [hk] at h; cases h

theorem wild_first {w : WMap} (hw : VMap.PW w.map) {p : Value × Value} {m : VMap} (hm : w.map = p :: m)
    (h1 : Accepts env c k p.1) (h2 : Accepts env c t p.2) :
    ∃ w', (lim env).map (.keyValue k t cut) w c = .ok w' := by
  rw [keyValue_eq]
  simp only [validateMapKeyvalue, mapKey_first hm h1]
  unfold Accepts validate at h2
  simp only [h2, WMap.remove, VMap.remove_some hw (show (p.1, p.2) ∈ w.map by rw [hm]; simp)]
  cases w.snaps <;> exact ⟨_, rfl⟩

theorem wild_empty {w : WMap} (hw : w.map = []) :
    ∃ m, (lim env).map (.keyValue k t cut) w c = .err (.mismatch m) w := by
  rw [keyValue_eq]
  obtain ⟨m, hm⟩ := mapKey_empty (env := env) (c := c) (k := k) hw
  simp only [validateMapKeyvalue, hm]
  exact ⟨_, rfl⟩

theorem without_self_mem {m : VMap} {key : Value} {P : Value × Value → Prop} (h : ∀ p ∈ m.without key, P p)
    {v : Value} (hpw : VMap.PW m) (hk : (key, v) ∈ m) (h' : P (key, v)) : ∀ p ∈ m, P p := by
  intro p hp
  by_cases hpk : p.1 = key
  · obtain ⟨a, b⟩ := p
    dsimp only at hpk
    subst hpk
    rw [hpw.key_unique hp hk]
    exact h'
  · exact h p (VMap.mem_without.mpr ⟨hp, hpk⟩)

theorem wild_occur {lo up : Nat} {msg : String} : ∀ (n cnt : Nat) (w : WMap), VMap.PW w.map → cnt < up → up + 1 ≤ cnt + n →
    ((∃ w', occurLoopS (fun w => (lim env).map (.keyValue k t cut) w c) lo up msg n cnt w = .ok w' ∧ w'.map = []) ↔
      (∀ p ∈ w.map, Accepts env c k p.1 ∧ Accepts env c t p.2) ∧ lo ≤ cnt + w.map.length ∧
        cnt + w.map.length ≤ up)
  | 0, cnt, w, _, h1, h2 => by omega
  | n + 1, cnt, w, hw, h1, h2 => by
    have fin : ∀ (w' : WMap) (n : Nat),
        ((∃ w'', (if n < lo then SRes.err (.mismatch msg) w' else .ok w') = .ok w'' ∧ w''.map = []) ↔
        w'.map = [] ∧ lo ≤ n) := by
      intro w' n
      split
      · simp; omega
      · simp; omega
    simp only [occurLoopS]
    cases hm : w.map with
    | nil =>
      obtain ⟨m, he⟩ := wild_empty (env := env) (c := c) (k := k) (t := t) (cut := cut) hm
      simp only [he, Err.isMismatch, if_true]
      rw [fin]
      simp [hm]
      omega
    | cons p rest =>
      rw [← hm]
      cases hr : (lim env).map (.keyValue k t cut) w c with
      | ok w' =>
        obtain ⟨key, v, h3, h4, h5, h6⟩ := wild_ok hw hr
        have hlen := without_length hw h3
        have hall : (∀ p ∈ w.map, Accepts env c k p.1 ∧ Accepts env c t p.2) ↔
            ∀ p ∈ w'.map, Accepts env c k p.1 ∧ Accepts env c t p.2 := by
          rw [h6]
          exact ⟨fun h p hp => h p (VMap.mem_without.mp hp).1, fun h => without_self_mem h hw h3 ⟨h4, h5⟩⟩
        rw [← h6] at hlen
        dsimp only
        split
        · rw [fin, hall]
          constructor
          · rintro ⟨h7, h8⟩; rw [h7]; rw [h7] at hlen; simp at hlen ⊢; omega
          · rintro ⟨h7, h8, h9⟩
            have : w'.map.length = 0 := by omega
            exact ⟨List.length_eq_zero_iff.mp this, by omega⟩
        · rw [wild_occur n (cnt + 1) w' (by rw [h6]; exact hw.without _) (by omega) (by omega), hall]
          refine and_congr_right fun _ => ?_
          omega
      | err e w' =>
        have hno : ¬ ∀ p ∈ w.map, Accepts env c k p.1 ∧ Accepts env c t p.2 := by
          intro h
          have := h p (by rw [hm]; simp)
          obtain ⟨w'', hw''⟩ := wild_first (cut := cut) hw hm this.1 this.2
          rw [hw''] at hr
          cases hr
        have hstate : w' = w := by
          rw [keyValue_eq] at hr
          simp only [validateMapKeyvalue] at hr
          split at hr
          · split at hr
            · simp only [WMap.remove] at hr
              split at hr
              · cases hr
              · split at hr <;> cases hr
            · split at hr <;> cases hr <;> rfl
            · cases hr
            · cases hr
          · cases hr; rfl
          · cases hr
          · cases hr
        constructor
        · rintro ⟨w'', h7, h8⟩
          dsimp only at h7
          split at h7
          · split at h7
            · cases h7
            · cases h7; rw [hstate, hm] at h8; cases h8
          · cases h7
        · rintro ⟨h7, _⟩; exact absurd h7 hno
      | panic =>
        have hno : ¬ ∀ p ∈ w.map, Accepts env c k p.1 ∧ Accepts env c t p.2 := by
          intro h
          have := h p (by rw [hm]; simp)
          obtain ⟨w'', hw''⟩ := wild_first (cut := cut) hw hm this.1 this.2
          rw [hw''] at hr
          cases hr
        constructor
        · rintro ⟨w'', h7, _⟩; cases h7
        · rintro ⟨h7, _⟩; exact absurd h7 hno
      | fuel =>
        have hno : ¬ ∀ p ∈ w.map, Accepts env c k p.1 ∧ Accepts env c t p.2 := by
          intro h
          have := h p (by rw [hm]; simp)
          obtain ⟨w'', hw''⟩ := wild_first (cut := cut) hw hm this.1 this.2
          rw [hw''] at hr
          cases hr
        constructor
        · rintro ⟨w'', h7, _⟩; cases h7
        · rintro ⟨h7, _⟩; exact absurd h7 hno

end

/-- C20, for every occurrence indicator whose upper bound is not 0 (for that bound see
`C14_upper_zero_refuted`; the same happens in maps, `C20_upper_zero`): `{ n*m k => t }` accepts exactly
the maps with an allowed number of pairs, all keys accepted by `k` and all values by `t`.  Map sizes fit
a 64-bit `usize`. -/
theorem C20_wildcard_occur (env : Env) (c : Ctx) (lim' : OccurLimit) (k t : Node) (cut : Bool) (v : Value)
    (hv : v.WF) (hm : 1 ≤ lim'.limits.2) (hlen : ∀ m, v = .map m → m.length < 2 ^ 64) :
    Accepts env c (.map [.occur lim' (.keyValue k t cut)]) v ↔
      ∃ m, v = .map m ∧ lim'.Allows m.length ∧
        ∀ key val, (key, val) ∈ m → Accepts env c k key ∧ Accepts env c t val := by
  rw [map_accepts]
  have e : ∀ w, seqLoopS (fun m w => (lim env).map m w c) [.occur lim' (.keyValue k t cut)] w =
      validateMapOccur env (lim env) lim' (.keyValue k t cut) w c := by
    intro w
    simp only [seqLoopS]
    rw [map_eq]
    show _ = mapBody env (lim env) (.occur lim' (.keyValue k t cut)) w c
    cases mapBody env (lim env) (.occur lim' (.keyValue k t cut)) w c <;> rfl
  constructor
  · rintro ⟨m, rfl, h⟩
    refine ⟨m, rfl, ?_⟩
    rw [e] at h
    have := (wild_occur (lo := lim'.limits.1) (up := lim'.limits.2) _ 0 (WMap.new m)
      ((VMap.sorted_iff _).mp hv.1) (by omega) (by omega)).mp h
    simp only [WMap.new, Nat.zero_add] at this
    refine ⟨?_, fun key val hp => this.1 _ hp⟩
    cases lim' <;> simp_all [OccurLimit.Allows, OccurLimit.limits]
  · rintro ⟨m, rfl, h1, h2⟩
    refine ⟨m, rfl, ?_⟩
    rw [e]
    refine (wild_occur (lo := lim'.limits.1) (up := lim'.limits.2) _ 0 (WMap.new m)
      ((VMap.sorted_iff _).mp hv.1) (by omega) (by omega)).mpr ⟨fun p hp => h2 p.1 p.2 hp, ?_⟩
    have := hlen m rfl
    simp only [WMap.new, Nat.zero_add]
    cases lim' <;> simp_all [OccurLimit.Allows, OccurLimit.limits, usizeMax] <;> omega

/-- C20.  `{ * k => t }` accepts exactly the maps all of whose keys are accepted by `k` and values
by `t`. -/
theorem C20_wildcard (env : Env) (c : Ctx) (k t : Node) (cut : Bool) (v : Value) (hv : v.WF)
    (hlen : ∀ m, v = .map m → m.length < 2 ^ 64) :
    Accepts env c (.map [.occur .zeroOrMore (.keyValue k t cut)]) v ↔
      ∃ m, v = .map m ∧ ∀ key val, (key, val) ∈ m → Accepts env c k key ∧ Accepts env c t val := by
  rw [C20_wildcard_occur env c .zeroOrMore k t cut v hv (by decide) hlen]
  simp [OccurLimit.Allows]

/-- With upper bound 0 a pair is still taken: `{ 0*0 int => int }` accepts `{1: 2}`. -/
theorem C20_upper_zero : Accepts (demoEnv []) top
    (.map [.occur (.numbered 0 0) (.keyValue (.prelude .int) (.prelude .int) false)])
    (.map [(.integer 1, .integer 2)]) := accepts_of_fuel 60 (by decide)

example : Accepts (demoEnv []) top
    (.map [.occur .zeroOrMore (.keyValue (.prelude .tstr) (.prelude .int) false)])
    (.map [(.text "a", .integer 1), (.text "b", .integer 2)]) := by
  have hwf : (Value.map [(.text "a", .integer 1), (.text "b", .integer 2)]).WF :=
    ⟨⟨by decide, trivial⟩, trivial, trivial, trivial, trivial, trivial⟩
  refine (C20_wildcard _ _ _ _ _ _ hwf
    (by rintro m h; cases h; decide)).mpr ⟨_, rfl, fun key val h => ?_⟩
  simp only [List.mem_cons, Prod.mk.injEq, List.not_mem_nil, or_false] at h
  rcases h with ⟨rfl, rfl⟩ | ⟨rfl, rfl⟩
  · exact ⟨accepts_of_fuel 60 (by decide), accepts_of_fuel 60 (by decide)⟩
  · exact ⟨accepts_of_fuel 60 (by decide), accepts_of_fuel 60 (by decide)⟩

end Cddl
