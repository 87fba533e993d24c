import Verif.Spec.Field
import Verif.Proofs.VMap

/-! # Matching map members -/

namespace Cddl

/-- `k: t` when the key is absent. -/
theorem keyvalue_absent {env : Env} {c : Ctx} {l : Literal} {t : Node} {cut : Bool} {w : WMap} (hw : VMap.PW w.map)
    (h : ∀ v, (l.toValue, v) ∉ w.map) :
    validateMapKeyvalue env (lim env) (.literal l) t cut w c =
      .err (.mismatch ("map{" ++ l.display env.fmtF64 ++ "}")) w := by
  simp only [validateMapKeyvalue, validateMapKey, mapSearchLiteral, (VMap.get_none hw).mpr h]

/-- `k: t` when the key is present with an accepted value. -/
theorem keyvalue_ok {env : Env} {c : Ctx} {l : Literal} {t : Node} {cut : Bool} {w : WMap} (hw : VMap.PW w.map)
    {v : Value} (h : (l.toValue, v) ∈ w.map) (ha : Accepts env c t v) :
    ∃ w', validateMapKeyvalue env (lim env) (.literal l) t cut w c = .ok w' ∧
      w'.map = w.map.without l.toValue := by
  unfold Accepts validate at ha
  simp only [validateMapKeyvalue, validateMapKey, mapSearchLiteral, (VMap.get_some hw).mpr h, ha, WMap.remove,
    VMap.remove_some hw h]
  cases w.snaps <;> exact ⟨_, rfl, rfl⟩

/-- `k: t` when the key is present with another value. -/
theorem keyvalue_bad {env : Env} {c : Ctx} {l : Literal} {t : Node} {cut : Bool} {w : WMap} (hw : VMap.PW w.map)
    {v : Value} (h : (l.toValue, v) ∈ w.map) (ha : ¬ Accepts env c t v) :
    validateMapKeyvalue env (lim env) (.literal l) t cut w c =
      match validate env v t c with
      | .ok () => .panic
      | .err e => match cut, e with
        | true, .mismatch m => .err (.mapCut m) w
        | _, x => .err x w
      | .panic => .panic
      | .fuel => .fuel := by
  unfold Accepts at ha
  simp only [validateMapKeyvalue, validateMapKey, mapSearchLiteral, (VMap.get_some hw).mpr h]
  show (match validate env v t c with | .ok () => _ | .err e => _ | .panic => _ | .fuel => _) = _
  cases hv : validate env v t c with
  | ok a => cases a; exact absurd hv ha
  | _ => rfl

/-- `? m` once. -/
theorem optional_eq {env : Env} {c : Ctx} {n : Node} {w : WMap} :
    (lim env).map (.occur .optional n) w c = match (lim env).map n w c with
      | .ok w' => .ok w'
      | .err e w' => if e.isMismatch then .ok w' else .err e w'
      | .panic => .panic
      | .fuel => .fuel := by
  rw [map_eq]
  simp only [mapBody, validateMapOccur, OccurLimit.limits, occurLoopS]
  cases (lim env).map n w c with
  | ok w' => simp
  | err e w' => simp
  | _ => rfl

theorem keyValue_eq {env : Env} {c : Ctx} {k t : Node} {cut : Bool} {w : WMap} :
    (lim env).map (.keyValue k t cut) w c = validateMapKeyvalue env (lim env) k t cut w c := by
  rw [map_eq]; rfl

theorem map_accepts {env : Env} {c : Ctx} {ms : List Node} {v : Value} :
    Accepts env c (.map ms) v ↔ ∃ m, v = .map m ∧
      ∃ w', seqLoopS (fun n w => (lim env).map n w c) ms (WMap.new m) = .ok w' ∧ w'.map = [] := by
  unfold Accepts validate
  rw [val_eq]
  cases v <;> simp [valBody, validateMap]
  rename_i m
  cases seqLoopS (fun n w => (lim env).map n w c) ms (WMap.new m) <;> simp

/-- What a field does to the map. -/
theorem field_step {env : Env} {c : Ctx} (f : Field) {w : WMap} (hw : VMap.PW w.map) :
    (∃ v, (f.key.toValue, v) ∈ w.map ∧ Accepts env c f.type v ∧
      ∃ w', (lim env).map f.node w c = .ok w' ∧ w'.map = w.map.without f.key.toValue) ∨
    ((∃ v, (f.key.toValue, v) ∈ w.map ∧ ¬ Accepts env c f.type v) ∧
      ∀ w', (lim env).map f.node w c = .ok w' → w' = w) ∨
    ((∀ v, (f.key.toValue, v) ∉ w.map) ∧
      if f.optional then (lim env).map f.node w c = .ok w else ∀ w', (lim env).map f.node w c ≠ .ok w') := by
  by_cases hk : ∃ v, (f.key.toValue, v) ∈ w.map
  · obtain ⟨v, hv⟩ := hk
    by_cases ha : Accepts env c f.type v
    · refine .inl ⟨v, hv, ha, ?_⟩
      obtain ⟨w', h1, h2⟩ := keyvalue_ok (cut := f.cut) hw hv ha
      refine ⟨w', ?_, h2⟩
      unfold Field.node
      split
      · rw [optional_eq, keyValue_eq, h1]
      · rw [keyValue_eq, h1]
    · refine .inr (.inl ⟨⟨v, hv, ha⟩, fun w' => ?_⟩)
      have hb := keyvalue_bad (cut := f.cut) hw hv ha
      unfold Field.node
      split
      · rw [optional_eq, keyValue_eq, hb]
        cases hval : validate env v f.type c with
        | ok a => intro h; cases h
        | err e =>
          dsimp only
          cases f.cut <;> cases e <;> simp [Err.isMismatch, eq_comm]
        | _ => intro h; cases h
      · rw [keyValue_eq, hb]
        cases hval : validate env v f.type c with
        | ok a => intro h; cases h
        | err e =>
          dsimp only
          cases f.cut <;> cases e <;> simp
        | _ => intro h; cases h
  · have hk : ∀ v, (f.key.toValue, v) ∉ w.map := fun v hv => hk ⟨v, hv⟩
    refine .inr (.inr ⟨hk, ?_⟩)
    have hb := keyvalue_absent (env := env) (c := c) (t := f.type) (cut := f.cut) hw hk
    unfold Field.node
    cases ho : f.optional
    · simp only [Bool.false_eq_true, if_false, keyValue_eq, hb]
      simp
    · simp [optional_eq, keyValue_eq, hb, Err.isMismatch]

theorem exists_cons_iff {α : Type} {a : α} {l : List α} {p : α → Prop} :
    (∃ x, x ∈ a :: l ∧ p x) ↔ p a ∨ ∃ x, x ∈ l ∧ p x := by
  constructor
  · rintro ⟨x, hx, hp⟩
    rcases List.mem_cons.mp hx with rfl | hx
    · exact .inl hp
    · exact .inr ⟨x, hx, hp⟩
  · rintro (h | ⟨x, hx, h⟩)
    · exact ⟨a, by simp, h⟩
    · exact ⟨x, by simp [hx], h⟩

theorem recordSat_cons {env : Env} {c : Ctx} {f : Field} {fs : List Field} {m : VMap}
    (hd : ∀ g ∈ fs, g.key.toValue ≠ f.key.toValue) {v : Value}
    (hv : (f.key.toValue, v) ∈ m) (hpw : VMap.PW m) (ha : Accepts env c f.type v) :
    RecordSat env c (f :: fs) m ↔ RecordSat env c fs (m.without f.key.toValue) := by
  simp only [RecordSat, List.forall_mem_cons, VMap.mem_without, exists_cons_iff]
  constructor
  · rintro ⟨⟨_, h1⟩, ⟨_, h2⟩, h3⟩
    refine ⟨fun g hg ho => ?_, fun g hg u hu => h2 g hg u hu.1, fun k u hu => ?_⟩
    · obtain ⟨u, hu⟩ := h1 g hg ho
      exact ⟨u, hu, hd g hg⟩
    · rcases h3 k u hu.1 with h | h
      · exact absurd h.symm hu.2
      · exact h
  · rintro ⟨h1, h2, h3⟩
    refine ⟨⟨fun _ => ⟨v, hv⟩, fun g hg ho => ?_⟩, ⟨fun u hu => ?_, fun g hg u hu => h2 g hg u ⟨hu, hd g hg⟩⟩,
      fun k u hu => ?_⟩
    · obtain ⟨u, hu⟩ := h1 g hg ho; exact ⟨u, hu.1⟩
    · rw [hpw.key_unique hu hv]; exact ha
    · by_cases hk : f.key.toValue = k
      · exact .inl hk
      · exact .inr (h3 k u ⟨hu, fun h => hk h.symm⟩)

theorem record_map_seq {env : Env} {c : Ctx} : ∀ (fs : List Field), (fs.map fun f => f.key.toValue).Nodup →
    ∀ w : WMap, VMap.PW w.map →
    ((∃ w', seqLoopS (fun n w => (lim env).map n w c) (fs.map Field.node) w = .ok w' ∧ w'.map = []) ↔
      RecordSat env c fs w.map)
  | [], _, w, hw => by
    simp only [List.map_nil, seqLoopS, SRes.ok.injEq, exists_eq_left', RecordSat]
    constructor
    · intro h; simp [h]
    · rintro ⟨-, -, h⟩
      cases hm : w.map with
      | nil => rfl
      | cons p t =>
        obtain ⟨f, hf, -⟩ := h p.1 p.2 (by rw [hm]; simp)
        cases hf
  | f :: fs, hd, w, hw => by
    rw [List.map_cons, List.nodup_cons] at hd
    have hd1 : ∀ g ∈ fs, g.key.toValue ≠ f.key.toValue := fun g hg h => hd.1 (List.mem_map.mpr ⟨g, hg, h⟩)
    simp only [List.map_cons, seqLoopS]
    rcases field_step (env := env) (c := c) f hw with ⟨v, hv, ha, w', h1, h2⟩ | ⟨⟨v, hv, ha⟩, h1⟩ | ⟨hk, h1⟩
    · rw [h1]
      dsimp only
      rw [record_map_seq fs hd.2 w' (by rw [h2]; exact hw.without _), h2]
      exact (recordSat_cons hd1 hv hw ha).symm
    · constructor
      · rintro ⟨w'', h2, h3⟩
        cases hm : (lim env).map f.node w c with
        | ok w' =>
          rw [hm] at h2
          obtain rfl := h1 w' hm
          have := (record_map_seq fs hd.2 w' hw).mp ⟨w'', h2, h3⟩
          obtain ⟨g, hg, h⟩ := this.2.2 _ _ hv
          exact absurd h (hd1 g hg)
        | err e w' => rw [hm] at h2; cases h2
        | panic => rw [hm] at h2; cases h2
        | fuel => rw [hm] at h2; cases h2
      · rintro ⟨-, h2, -⟩
        exact absurd (h2 f (by simp) v hv) ha
    · cases ho : f.optional with
      | true =>
        simp only [ho, if_true] at h1
        rw [h1]
        dsimp only
        rw [record_map_seq fs hd.2 w hw]
        simp only [RecordSat, List.forall_mem_cons, exists_cons_iff, ho]
        constructor
        · rintro ⟨h2, h3, h4⟩
          exact ⟨⟨by simp, h2⟩, ⟨fun u hu => absurd hu (hk u), h3⟩, fun k u hu => .inr (h4 k u hu)⟩
        · rintro ⟨⟨_, h2⟩, ⟨_, h3⟩, h4⟩
          refine ⟨h2, h3, fun k u hu => ?_⟩
          rcases h4 k u hu with h | h
          · rw [← h] at hu; exact absurd hu (hk u)
          · exact h
      | false =>
        simp only [ho, Bool.false_eq_true, if_false] at h1
        constructor
        · rintro ⟨w'', h2, _⟩
          cases hm : (lim env).map f.node w c with
          | ok w' => exact absurd hm (h1 w')
          | err e w' => rw [hm] at h2; cases h2
          | panic => rw [hm] at h2; cases h2
          | fuel => rw [hm] at h2; cases h2
        · rintro ⟨h2, -, -⟩
          obtain ⟨u, hu⟩ := h2 f (by simp) ho
          exact absurd hu (hk u)

end Cddl
