import Verif.Props.C12
import Verif.Props.C18
import Verif.Proofs.Sound

/-! # C17  Choices between tuples, and between records

The general statement (Props/C17) is about groups that can be undone.  Here are the two common cases in full: an array that
is a choice between lists of entries, and a map that is a choice between lists of fields.  The first alternative that fits
what is there is taken, no matter how far the ones before it came. -/

namespace Cddl

/-- The check ends with yes or a mismatch. -/
def Plainly (r : Res Unit) : Prop := r = .ok () ∨ ∃ m, r = .err (.mismatch m)

theorem tuple_seq {env : Env} {c : Ctx} {ms ts : List Node} (h : All2 (Entry env c) ms ts) :
    ∀ (w : WArr) (s : List Value) (ss : List (List Value)), w.snaps = s :: ss →
      (∀ t ∈ ts, ∀ x ∈ w.array, Plainly (validate env x t c)) →
      (∃ ys w', w.array = ys ++ w'.array ∧ w'.snaps = (s ++ ys) :: ss ∧
        seqLoopS (fun m w => (lim env).arr m w c) ms w = .ok w' ∧ All2 (fun t x => Accepts env c t x) ts ys) ∨
      (∃ ys w' e, w.array = ys ++ w'.array ∧ w'.snaps = (s ++ ys) :: ss ∧
        seqLoopS (fun m w => (lim env).arr m w c) ms w = .err e w' ∧ e.isFatal = false ∧
        ∀ as bs, w.array = as ++ bs → ¬ All2 (fun t x => Accepts env c t x) ts as) := by
  induction h with
  | nil =>
    intro w s ss hs _
    exact .inl ⟨[], w, rfl, by simpa using hs, rfl, .nil⟩
  | cons hm _ ih =>
    rename_i m t ms ts _
    intro w s ss hs hp
    have ht := hm.takesOne
    simp only [seqLoopS]
    cases hw : w.array with
    | nil =>
      obtain ⟨e, he⟩ := ht.1 w hw
      dsimp only at he
      simp only [he]
      refine .inr ⟨[], w, _, by simpa using hw.symm, by simpa using hs, rfl, rfl, fun as bs h h1 => ?_⟩
      cases h1
      cases h
    | cons x xs =>
      have h2 := ht.2 w x xs hw
      dsimp only at h2
      rw [h2]
      rcases hp t (by simp) x (by simp [hw]) with hv | ⟨k, hv⟩
      · have hpop : w.popFront = .ok ⟨xs, (s ++ [x]) :: ss⟩ := by simp [WArr.popFront, hw, hs]
        simp only [hv, hpop]
        rcases ih ⟨xs, (s ++ [x]) :: ss⟩ (s ++ [x]) ss rfl
            (fun t' ht' y hy => hp t' (by simp [ht']) y (by rw [hw]; simp only [List.mem_cons]; exact .inr hy)) with
          ⟨ys, w', h3, h4, h5, h6⟩ | ⟨ys, w', e, h3, h4, h5, h6, h7⟩
        · refine .inl ⟨x :: ys, w', ?_, by simp [h4], h5, .cons hv h6⟩
          rw [List.cons_append]; exact congrArg _ h3
        · refine .inr ⟨x :: ys, w', e, ?_, by simp [h4], h5, h6, fun as bs h h1 => ?_⟩
          · rw [List.cons_append]; exact congrArg _ h3
          · cases h1 with
            | cons _ h1 =>
              rw [List.cons_append] at h
              obtain ⟨_, h⟩ := List.cons.inj h
              exact h7 _ _ h h1
      · simp only [hv, SRes.ofRes]
        refine .inr ⟨[], w, _, by simpa using hw.symm, by simpa using hs, rfl, rfl, fun as bs h h1 => ?_⟩
        cases h1 with
        | cons h1 _ =>
          rw [List.cons_append] at h
          obtain ⟨rfl, _⟩ := List.cons.inj h
          unfold Accepts at h1
          rw [hv] at h1
          cases h1

/-- What a group of entries does to an array. -/
theorem tuple_group {env : Env} {c : Ctx} {ms ts : List Node} (h : All2 (Entry env c) ms ts) (xs : List Value)
    (hp : ∀ t ∈ ts, ∀ x ∈ xs, Plainly (validate env x t c)) :
    (∃ ys zs, xs = ys ++ zs ∧ All2 (fun t x => Accepts env c t x) ts ys ∧
      (lim env).arr (.group ms) (WArr.new xs) c = .ok (WArr.new zs)) ∨
    ((∀ ys zs, xs = ys ++ zs → ¬ All2 (fun t x => Accepts env c t x) ts ys) ∧
      ∃ e, (lim env).arr (.group ms) (WArr.new xs) c = .err e (WArr.new xs) ∧ e.isFatal = false) := by
  rw [arr_eq]
  simp only [arrBody, validateArrayGroup]
  rcases tuple_seq h (WArr.new xs).snapshot [] [] rfl hp with ⟨ys, w', h1, h2, h3, h4⟩ | ⟨ys, w', e, h1, h2, h3, h4, h5⟩
  · refine .inl ⟨ys, w'.array, h1, h4, ?_⟩
    rw [h3]
    obtain ⟨a, l⟩ := w'
    dsimp only at h2
    subst h2
    rfl
  · refine .inr ⟨h5, e, ?_, h4⟩
    rw [h3]
    obtain ⟨a, l⟩ := w'
    dsimp only at h1 h2
    subst h2
    simp only [WArr.rewind, List.nil_append, WArr.new]
    rw [← h1]
    rfl

/-- C17.  An array that is a choice between tuples: the first tuple that fits the beginning of the array has to fit the whole
of it.  In particular elements that were taken by an alternative before it failed are there again for the next. -/
theorem C17_tuples (env : Env) (c : Ctx) (alts : List (List Node × List Node)) (xs : List Value)
    (h : ∀ p ∈ alts, All2 (Entry env c) p.1 p.2)
    (hp : ∀ p ∈ alts, ∀ t ∈ p.2, ∀ x ∈ xs, Plainly (validate env x t c)) :
    Accepts env c (.array [.choice (alts.map fun p => .group p.1)]) (.array xs) ↔
      ∃ pre p post, alts = pre ++ p :: post ∧ All2 (fun t x => Accepts env c t x) p.2 xs ∧
        ∀ q ∈ pre, ∀ ys zs, xs = ys ++ zs → ¬ All2 (fun t x => Accepts env c t x) q.2 ys := by
  rw [array_accepts]
  have loop : ∀ (msg : String) (alts : List (List Node × List Node)), (∀ p ∈ alts, All2 (Entry env c) p.1 p.2) →
      (∀ p ∈ alts, ∀ t ∈ p.2, ∀ x ∈ xs, Plainly (validate env x t c)) →
      ((∃ w', choiceLoopS (fun m w => (lim env).arr m w c) Err.isFatal msg (alts.map fun p => .group p.1) (WArr.new xs) =
          .ok w' ∧ w'.array = []) ↔
        ∃ pre p post, alts = pre ++ p :: post ∧ All2 (fun t x => Accepts env c t x) p.2 xs ∧
          ∀ q ∈ pre, ∀ ys zs, xs = ys ++ zs → ¬ All2 (fun t x => Accepts env c t x) q.2 ys) := by
    intro msg alts
    induction alts with
    | nil =>
      intro _ _
      constructor
      · rintro ⟨w', h, _⟩; cases h
      · rintro ⟨pre, p, post, h, _⟩; simp at h
    | cons p ps ih =>
      intro h hp
      have ih := ih (fun q hq => h q (by simp [hq])) (fun q hq => hp q (by simp [hq]))
      simp only [List.map_cons, choiceLoopS]
      rcases tuple_group (h p (by simp)) xs (hp p (by simp)) with ⟨ys, zs, h1, h2, h3⟩ | ⟨h1, e, h2, h3⟩
      · rw [h3]
        constructor
        · rintro ⟨w', h4, h5⟩
          cases h4
          have h5 : zs = [] := h5
          subst h5
          rw [List.append_nil] at h1
          subst h1
          exact ⟨[], p, ps, rfl, h2, by simp⟩
        · rintro ⟨pre, q, post, h4, h5, h6⟩
          cases pre with
          | nil =>
            obtain ⟨rfl, rfl⟩ := List.cons.inj h4
            refine ⟨_, rfl, ?_⟩
            have hl := h2.length.symm.trans h5.length
            subst h1
            rw [List.length_append] at hl
            show zs = []
            exact List.length_eq_zero_iff.mp (by omega)
          | cons q' pre =>
            obtain ⟨rfl, rfl⟩ := List.cons.inj h4
            exact absurd h2 (h6 p (by simp) ys zs h1)
      · rw [h2]
        simp only [h3, Bool.false_eq_true, if_false]
        rw [ih]
        constructor
        · rintro ⟨pre, q, post, rfl, h4, h5⟩
          refine ⟨p :: pre, q, post, rfl, h4, ?_⟩
          intro r hr
          rcases List.mem_cons.mp hr with rfl | hr
          · exact h1
          · exact h5 r hr
        · rintro ⟨pre, q, post, h4, h5, h6⟩
          cases pre with
          | nil =>
            obtain ⟨rfl, rfl⟩ := List.cons.inj h4
            exact absurd h5 (h1 xs [] (by simp))
          | cons q' pre =>
            obtain ⟨rfl, rfl⟩ := List.cons.inj h4
            exact ⟨pre, q, post, rfl, h5, fun r hr => h6 r (by simp [hr])⟩
  have := loop ("choice of " ++ toString (alts.map fun p : List Node × List Node => Node.group p.1).length) alts h hp
  rw [← this]
  simp only [Value.array.injEq, exists_eq_left', seqLoopS]
  rw [arr_eq]
  simp only [arrBody]
  cases choiceLoopS (fun m w => (lim env).arr m w c) Err.isFatal
    ("choice of " ++ toString (alts.map fun p : List Node × List Node => Node.group p.1).length)
    (alts.map fun p => .group p.1) (WArr.new xs) <;> simp

/-- `[(int, int, int // int, int, tstr)]` and `[1, 2, "a"]`: the first alternative has taken `1` and `2` before it fails. -/
example : Accepts (demoEnv []) top (.array [.choice [.group [.prelude .int, .prelude .int, .prelude .int],
    .group [.prelude .int, .prelude .int, .prelude .tstr]]]) (.array [.integer 1, .integer 2, .text "a"]) := by
  have hacc : ∀ x ∈ [Value.integer 1, .integer 2, .text "a"], ∀ t ∈ [Node.prelude .int, .prelude .tstr],
      Plainly (validate (demoEnv []) x t top) := by
    intro x hx t ht
    simp only [List.mem_cons, List.not_mem_nil, or_false] at hx ht
    rcases hx with rfl | rfl | rfl <;> rcases ht with rfl | rfl
    all_goals first
      | exact .inl (validate_of_fuel 60 (by decide))
      | exact .inr ⟨_, validate_of_fuel (r := .err (.mismatch "int")) 60 (by decide)⟩
      | exact .inr ⟨_, validate_of_fuel (r := .err (.mismatch "tstr")) 60 (by decide)⟩
  refine (C17_tuples _ _ [([.prelude .int, .prelude .int, .prelude .int], [.prelude .int, .prelude .int, .prelude .int]),
    ([.prelude .int, .prelude .int, .prelude .tstr], [.prelude .int, .prelude .int, .prelude .tstr])] _ ?_ ?_).mpr
    ⟨[_], _, [], rfl, ?_, ?_⟩
  · intro p hp
    simp only [List.mem_cons, List.not_mem_nil, or_false] at hp
    rcases hp with rfl | rfl
    all_goals exact .cons (.plain (.prelude _ _)) (.cons (.plain (.prelude _ _)) (.cons (.plain (.prelude _ _)) .nil))
  · intro p hp t ht x hx
    refine hacc x hx t ?_
    simp only [List.mem_cons, List.not_mem_nil, or_false] at hp
    rcases hp with rfl | rfl <;> simp at ht ⊢ <;> simp [ht]
  · exact .cons (accepts_of_fuel 60 (by decide)) (.cons (accepts_of_fuel 60 (by decide)) (.cons (accepts_of_fuel 60 (by decide)) .nil))
  · intro q hq ys zs h h1
    simp only [List.mem_cons, List.not_mem_nil, or_false] at hq
    subst hq
    have hl := h1.length
    obtain ⟨_, _, _, rfl⟩ : ∃ a b c, ys = [a, b, c] := by
      match ys, hl with
      | [a, b, c], _ => exact ⟨a, b, c, rfl⟩
    simp only [List.cons_append, List.cons.injEq] at h
    obtain ⟨rfl, rfl, rfl, _⟩ := h
    cases h1 with | cons _ h1 => cases h1 with | cons _ h1 => cases h1 with
      | cons h1 _ =>
        have := validate_of_fuel (env := demoEnv []) (v := .text "a") (n := .prelude .int) (c := top)
          (r := .err (.mismatch "int")) 60 (by decide)
        unfold Accepts at h1
        rw [this] at h1
        cases h1

/-! ## Maps -/

/-- The map has all required keys, and accepted values for the keys that are named; it may have other keys. -/
def RecordFits (env : Env) (c : Ctx) (fs : List Field) (m : VMap) : Prop :=
  (∀ f ∈ fs, f.optional = false → ∃ v, (f.key.toValue, v) ∈ m) ∧
  ∀ f ∈ fs, ∀ v, (f.key.toValue, v) ∈ m → Accepts env c f.type v

/-- What a field does to a map, with what is on record. -/
theorem field_logged {env : Env} {c : Ctx} (f : Field) {w : WMap} {s : List (Value × Value)} {ss : List (List (Value × Value))}
    (hw : VMap.PW w.map) (hs : w.snaps = s :: ss) (hf : f.optional = true → f.cut = true)
    (hp : ∀ v, (f.key.toValue, v) ∈ w.map → Plainly (validate env v f.type c)) :
    (∃ v, (f.key.toValue, v) ∈ w.map ∧ Accepts env c f.type v ∧ (lim env).map f.node w c =
      .ok ⟨w.map.without f.key.toValue, (s ++ [(f.key.toValue, v)]) :: ss⟩) ∨
    (∃ v e, (f.key.toValue, v) ∈ w.map ∧ ¬ Accepts env c f.type v ∧ (lim env).map f.node w c = .err e w ∧ e.isFatal = false) ∨
    ((∀ v, (f.key.toValue, v) ∉ w.map) ∧ ((f.optional = true ∧ (lim env).map f.node w c = .ok w) ∨
      (f.optional = false ∧ ∃ e, (lim env).map f.node w c = .err e w ∧ e.isFatal = false))) := by
  by_cases hk : ∃ v, (f.key.toValue, v) ∈ w.map
  · obtain ⟨v, hv⟩ := hk
    rcases hp v hv with ha | ⟨k, ha⟩
    · refine .inl ⟨v, hv, ha, ?_⟩
      have h1 : validateMapKeyvalue env (lim env) (.literal f.key) f.type f.cut w c =
          .ok ⟨w.map.without f.key.toValue, (s ++ [(f.key.toValue, v)]) :: ss⟩ := by
        unfold validate at ha
        simp only [validateMapKeyvalue, validateMapKey, mapSearchLiteral, (VMap.get_some hw).mpr hv, ha, WMap.remove,
          VMap.remove_some hw hv, hs]
      unfold Field.node
      split
      · rw [optional_eq, keyValue_eq, h1]
      · rw [keyValue_eq, h1]
    · have hna : ¬ Accepts env c f.type v := by unfold Accepts; rw [ha]; simp
      have hb := keyvalue_bad (cut := f.cut) hw hv hna
      rw [ha] at hb
      dsimp only at hb
      refine .inr (.inl ?_)
      refine ⟨v, if f.cut then .mapCut k else .mismatch k, hv, hna, ?_, by split <;> rfl⟩
      unfold Field.node
      cases ho : f.optional with
      | true =>
        have hcut := hf ho
        rw [hcut] at hb
        simp only [if_true, hcut]
        rw [optional_eq, keyValue_eq, hb]
        rfl
      | false =>
        simp only [Bool.false_eq_true, if_false]
        rw [keyValue_eq, hb]
        cases f.cut <;> rfl
  · have hk : ∀ v, (f.key.toValue, v) ∉ w.map := fun v hv => hk ⟨v, hv⟩
    refine .inr (.inr ⟨hk, ?_⟩)
    have hb := keyvalue_absent (env := env) (c := c) (t := f.type) (cut := f.cut) hw hk
    unfold Field.node
    cases ho : f.optional
    · refine .inr ⟨rfl, .mismatch ("map{" ++ f.key.display env.fmtF64 ++ "}"), ?_, rfl⟩
      simp only [Bool.false_eq_true, if_false]
      rw [keyValue_eq, hb]
    · refine .inl ⟨rfl, ?_⟩
      simp [optional_eq, keyValue_eq, hb, Err.isMismatch]

theorem fits_cons {env : Env} {c : Ctx} {f : Field} {fs : List Field} {m : VMap}
    (hd : ∀ g ∈ fs, g.key.toValue ≠ f.key.toValue) {v : Value}
    (hv : (f.key.toValue, v) ∈ m) (hpw : VMap.PW m) (ha : Accepts env c f.type v) :
    RecordFits env c (f :: fs) m ↔ RecordFits env c fs (m.without f.key.toValue) := by
  simp only [RecordFits, List.forall_mem_cons, VMap.mem_without]
  constructor
  · rintro ⟨⟨_, h1⟩, ⟨_, h2⟩⟩
    refine ⟨fun g hg ho => ?_, fun g hg u hu => h2 g hg u hu.1⟩
    obtain ⟨u, hu⟩ := h1 g hg ho
    exact ⟨u, hu, hd g hg⟩
  · rintro ⟨h1, h2⟩
    refine ⟨⟨fun _ => ⟨v, hv⟩, fun g hg ho => ?_⟩, ⟨fun u hu => ?_, fun g hg u hu => h2 g hg u ⟨hu, hd g hg⟩⟩⟩
    · obtain ⟨u, hu⟩ := h1 g hg ho; exact ⟨u, hu.1⟩
    · rw [hpw.key_unique hu hv]; exact ha

theorem perm_without {m : VMap} (h : VMap.PW m) {k v : Value} (hk : (k, v) ∈ m) : ((k, v) :: m.without k).Perm m := by
  induction m with
  | nil => cases hk
  | cons p t ih =>
    rcases List.mem_cons.mp hk with h1 | h1
    · subst h1
      have : VMap.without ((k, v) :: t) k = t := by
        unfold VMap.without
        rw [List.filter_cons]
        simp only [ne_eq, not_true_eq_false, decide_false, Bool.false_eq_true, if_false]
        refine VMap.without_eq_self fun u hu => ?_
        have := h.key_unique hk (List.mem_cons_of_mem _ hu)
        subst this
        have h2 := h.head hu
        simp [Value.cmp_refl] at h2
      rw [this]
    · have hne : p.1 ≠ k := by
        intro hpk
        have h2 := h.head h1
        rw [hpk] at h2
        simp [Value.cmp_refl] at h2
      have : VMap.without (p :: t) k = p :: VMap.without t k := by
        unfold VMap.without
        rw [List.filter_cons]
        simp [hne]
      rw [this]
      exact (List.Perm.swap _ _ _).trans ((ih h.tail h1).cons p)

theorem record_seq_logged {env : Env} {c : Ctx} : ∀ (fs : List Field), (fs.map fun f => f.key.toValue).Nodup →
    (∀ f ∈ fs, f.optional = true → f.cut = true) →
    ∀ (w : WMap) (s : List (Value × Value)) (ss : List (List (Value × Value))), VMap.PW w.map → w.snaps = s :: ss →
    (∀ f ∈ fs, ∀ v, (f.key.toValue, v) ∈ w.map → Plainly (validate env v f.type c)) →
    ∃ w' ys, VMap.PW w'.map ∧ w'.snaps = (s ++ ys) :: ss ∧ (ys ++ w'.map).Perm w.map ∧
      ((RecordFits env c fs w.map ∧ seqLoopS (fun n w => (lim env).map n w c) (fs.map Field.node) w = .ok w' ∧
        ∀ p, p ∈ w'.map ↔ p ∈ w.map ∧ ∀ f ∈ fs, f.key.toValue ≠ p.1) ∨
      (¬ RecordFits env c fs w.map ∧ ∃ e, seqLoopS (fun n w => (lim env).map n w c) (fs.map Field.node) w = .err e w' ∧
        e.isFatal = false))
  | [], _, _, w, s, ss, hw, hs, _ =>
    ⟨w, [], hw, by simpa using hs, .refl _, .inl ⟨⟨by simp, by simp⟩, rfl, by simp⟩⟩
  | f :: fs, hd, ho, w, s, ss, hw, hs, hp => by
    rw [List.map_cons, List.nodup_cons] at hd
    have hd1 : ∀ g ∈ fs, g.key.toValue ≠ f.key.toValue := fun g hg h => hd.1 (List.mem_map.mpr ⟨g, hg, h⟩)
    simp only [List.map_cons, seqLoopS]
    rcases field_logged (env := env) (c := c) f hw hs (ho f (by simp)) (hp f (by simp)) with
      ⟨v, hv, ha, h1⟩ | ⟨v, e, hv, ha, h1, h2⟩ | ⟨hk, ⟨h1, h2⟩ | ⟨h1, e, h2, h3⟩⟩
    · rw [h1]
      dsimp only
      obtain ⟨w', ys, h2, h3, h4, h5⟩ := record_seq_logged fs hd.2 (fun g hg => ho g (by simp [hg]))
        ⟨w.map.without f.key.toValue, (s ++ [(f.key.toValue, v)]) :: ss⟩ (s ++ [(f.key.toValue, v)]) ss (hw.without _) rfl
        (fun g hg u hu => hp g (by simp [hg]) u (VMap.mem_without.mp hu).1)
      refine ⟨w', (f.key.toValue, v) :: ys, h2, by simp [h3], ?_, ?_⟩
      · exact (h4.cons _).trans (perm_without hw hv)
      · rw [fits_cons hd1 hv hw ha]
        rcases h5 with ⟨h5, h6, h7⟩ | h5
        · refine .inl ⟨h5, h6, fun p => ?_⟩
          rw [h7, VMap.mem_without, List.forall_mem_cons, and_assoc]
          exact ⟨fun ⟨h1, h2, h3⟩ => ⟨h1, Ne.symm h2, h3⟩, fun ⟨h1, h2, h3⟩ => ⟨h1, Ne.symm h2, h3⟩⟩
        · exact .inr h5
    · rw [h1]
      refine ⟨w, [], hw, by simpa using hs, .refl _, .inr ⟨fun h => ha (h.2 f (by simp) v hv), e, rfl, h2⟩⟩
    · rw [h2]
      dsimp only
      obtain ⟨w', ys, h3, h4, h5, h6⟩ := record_seq_logged fs hd.2 (fun g hg => ho g (by simp [hg])) w s ss hw hs
        (fun g hg => hp g (by simp [hg]))
      refine ⟨w', ys, h3, h4, h5, ?_⟩
      have : RecordFits env c (f :: fs) w.map ↔ RecordFits env c fs w.map := by
        simp only [RecordFits, List.forall_mem_cons, h1, Bool.true_eq_false, false_implies, true_and]
        exact ⟨fun h => ⟨h.1, h.2.2⟩, fun h => ⟨h.1, fun v hv => absurd hv (hk v), h.2⟩⟩
      rw [this]
      rcases h6 with ⟨h6, h7, h8⟩ | h6
      · refine .inl ⟨h6, h7, fun p => ?_⟩
        rw [h8, List.forall_mem_cons]
        refine ⟨fun ⟨h1, h2⟩ => ⟨h1, fun h => hk p.2 (by rw [h]; exact h1), h2⟩, fun ⟨h1, _, h2⟩ => ⟨h1, h2⟩⟩
      · exact .inr h6
    · rw [h2]
      refine ⟨w, [], hw, by simpa using hs, .refl _, .inr ⟨fun h => ?_, e, rfl, h3⟩⟩
      obtain ⟨v, hv⟩ := h.1 f (by simp) h1
      exact hk v hv

/-- What a group of fields does to a map. -/
theorem record_group {env : Env} {c : Ctx} (fs : List Field) (hd : (fs.map fun f => f.key.toValue).Nodup)
    (ho : ∀ f ∈ fs, f.optional = true → f.cut = true) (m : VMap) (hm : VMap.PW m)
    (hp : ∀ f ∈ fs, ∀ v, (f.key.toValue, v) ∈ m → Plainly (validate env v f.type c)) :
    (RecordFits env c fs m ∧ ∃ m', (lim env).map (.group (fs.map Field.node)) (WMap.new m) c = .ok (WMap.new m') ∧
      ∀ p, p ∈ m' ↔ p ∈ m ∧ ∀ f ∈ fs, f.key.toValue ≠ p.1) ∨
    (¬ RecordFits env c fs m ∧ ∃ e, (lim env).map (.group (fs.map Field.node)) (WMap.new m) c = .err e (WMap.new m) ∧
      e.isMismatch = true) := by
  rw [map_eq]
  simp only [mapBody, validateMapGroup]
  obtain ⟨w', ys, h1, h2, h3, h4⟩ := record_seq_logged (env := env) (c := c) fs hd ho (WMap.new m).snapshot [] [] hm rfl hp
  obtain ⟨a, l⟩ := w'
  dsimp only at h2
  subst h2
  rcases h4 with ⟨h4, h5, h6⟩ | ⟨h4, e, h5, h6⟩
  · refine .inl ⟨h4, a, ?_, h6⟩
    rw [h5]
    rfl
  · refine .inr ⟨h4, e.eraseMapcut, ?_, ?_⟩
    · rw [h5]
      simp only [WMap.rewind, List.nil_append]
      have h7 := VMap.extend_perm (M := m) hm ys h1 h3
      rw [h7]
      rfl
    · cases e <;> first | rfl | cases h6

/-- C17.  A map that is a choice between records: the first record whose keys are there with accepted values has to name all
keys of the map.  In particular pairs that were taken by an alternative before it failed are there again for the next, and a
cut ends only the alternative that it stands in. -/
theorem C17_records (env : Env) (c : Ctx) (alts : List (List Field)) (m : VMap) (hv : (Value.map m).WF)
    (hd : ∀ fs ∈ alts, (fs.map fun f => f.key.toValue).Nodup) (ho : ∀ fs ∈ alts, ∀ f ∈ fs, f.optional = true → f.cut = true)
    (hp : ∀ fs ∈ alts, ∀ f ∈ fs, ∀ v, (f.key.toValue, v) ∈ m → Plainly (validate env v f.type c)) :
    Accepts env c (.map [.choice (alts.map fun fs => .group (fs.map Field.node))]) (.map m) ↔
      ∃ pre fs post, alts = pre ++ fs :: post ∧ RecordSat env c fs m ∧ ∀ gs ∈ pre, ¬ RecordFits env c gs m := by
  have hm : VMap.PW m := (VMap.sorted_iff _).mp hv.1
  rw [map_accepts]
  have loop : ∀ (msg : String) (alts : List (List Field)), (∀ fs ∈ alts, (fs.map fun f => f.key.toValue).Nodup) →
      (∀ fs ∈ alts, ∀ f ∈ fs, f.optional = true → f.cut = true) →
      (∀ fs ∈ alts, ∀ f ∈ fs, ∀ v, (f.key.toValue, v) ∈ m → Plainly (validate env v f.type c)) →
      ((∃ w', choiceLoopS (fun m w => (lim env).map m w c) (fun e => !e.isMismatch) msg
          (alts.map fun fs => .group (fs.map Field.node)) (WMap.new m) = .ok w' ∧ w'.map = []) ↔
        ∃ pre fs post, alts = pre ++ fs :: post ∧ RecordSat env c fs m ∧ ∀ gs ∈ pre, ¬ RecordFits env c gs m) := by
    intro msg alts
    induction alts with
    | nil =>
      intro _ _ _
      constructor
      · rintro ⟨w', h, _⟩; cases h
      · rintro ⟨pre, p, post, h, _⟩; simp at h
    | cons fs ps ih =>
      intro hd ho hp
      have ih := ih (fun q hq => hd q (by simp [hq])) (fun q hq => ho q (by simp [hq])) (fun q hq => hp q (by simp [hq]))
      simp only [List.map_cons, choiceLoopS]
      rcases record_group fs (hd fs (by simp)) (ho fs (by simp)) m hm (hp fs (by simp)) with ⟨h1, m', h2, h3⟩ | ⟨h1, e, h2, h3⟩
      · rw [h2]
        constructor
        · rintro ⟨w', h4, h5⟩
          cases h4
          have h5 : m' = [] := h5
          subst h5
          refine ⟨[], fs, ps, rfl, ⟨h1.1, h1.2, fun k v hkv => ?_⟩, by simp⟩
          have h6 : ¬ ((k, v) ∈ m ∧ ∀ f ∈ fs, f.key.toValue ≠ k) := fun h => by cases (h3 (k, v)).mpr h
          simpa [hkv] using h6
        · rintro ⟨pre, q, post, h4, h5, h6⟩
          cases pre with
          | nil =>
            obtain ⟨rfl, rfl⟩ := List.cons.inj h4
            refine ⟨_, rfl, ?_⟩
            show m' = []
            refine List.eq_nil_iff_forall_not_mem.mpr fun p hp => ?_
            obtain ⟨h7, h8⟩ := (h3 p).mp hp
            obtain ⟨f, hf, h9⟩ := h5.2.2 p.1 p.2 h7
            exact h8 f hf h9
          | cons q' pre =>
            obtain ⟨rfl, rfl⟩ := List.cons.inj h4
            exact absurd h1 (h6 fs (by simp))
      · rw [h2]
        simp only [h3, Bool.not_true, Bool.false_eq_true, if_false]
        rw [ih]
        constructor
        · rintro ⟨pre, q, post, rfl, h4, h5⟩
          refine ⟨fs :: pre, q, post, rfl, h4, ?_⟩
          intro r hr
          rcases List.mem_cons.mp hr with rfl | hr
          · exact h1
          · exact h5 r hr
        · rintro ⟨pre, q, post, h4, h5, h6⟩
          cases pre with
          | nil =>
            obtain ⟨rfl, rfl⟩ := List.cons.inj h4
            exact absurd ⟨h5.1, h5.2.1⟩ h1
          | cons q' pre =>
            obtain ⟨rfl, rfl⟩ := List.cons.inj h4
            exact ⟨pre, q, post, rfl, h5, fun r hr => h6 r (by simp [hr])⟩
  have := loop ("choice of " ++ toString (alts.map fun fs : List Field => Node.group (fs.map Field.node)).length) alts hd ho hp
  rw [← this]
  simp only [Value.map.injEq, exists_eq_left', seqLoopS]
  rw [map_eq]
  simp only [mapBody, validateMapChoice]
  cases choiceLoopS (fun m w => (lim env).map m w c) (fun e => !e.isMismatch)
    ("choice of " ++ toString (alts.map fun fs : List Field => Node.group (fs.map Field.node)).length)
    (alts.map fun fs => .group (fs.map Field.node)) (WMap.new m) <;> simp

/-- The alternatives of `{(a: int, b: int // a: int, ? c: tstr)}`. -/
def pointFields : List (List Field) :=
  [[⟨.text "a", .prelude .int, false, true⟩, ⟨.text "b", .prelude .int, false, true⟩],
   [⟨.text "a", .prelude .int, false, true⟩, ⟨.text "c", .prelude .tstr, true, true⟩]]

/-- `{"a": 1, "c": "x"}`: the first alternative has taken the key `a` before it fails. -/
example : Accepts (demoEnv []) top (.map [.choice (pointFields.map fun fs => .group (fs.map Field.node))])
    (.map [(.text "a", .integer 1), (.text "c", .text "x")]) := by
  have hwf : (Value.map [(.text "a", .integer 1), (.text "c", .text "x")]).WF :=
    ⟨⟨by decide, trivial⟩, trivial, trivial, trivial, trivial, trivial⟩
  have hacc : Accepts (demoEnv []) top (.prelude .int) (.integer 1) := accepts_of_fuel 60 (by decide)
  have hacc' : Accepts (demoEnv []) top (.prelude .tstr) (.text "x") := accepts_of_fuel 60 (by decide)
  refine (C17_records _ _ _ _ hwf ?_ ?_ ?_).mpr ⟨[_], _, [], rfl, ⟨?_, ?_, ?_⟩, ?_⟩
  · simp [pointFields, Literal.toValue]
  · simp [pointFields]
  · have : ∀ fs ∈ pointFields, ∀ f ∈ fs, (f.key = .text "a" ∧ f.type = .prelude .int) ∨ f.key = .text "b" ∨
        (f.key = .text "c" ∧ f.type = .prelude .tstr) := by simp [pointFields]
    intro fs hfs f hf v hv
    rcases this fs hfs f hf with ⟨h1, h2⟩ | h1 | ⟨h1, h2⟩
    · simp [h1, Literal.toValue] at hv; rw [hv, h2]; exact .inl hacc
    · simp [h1, Literal.toValue] at hv
    · simp [h1, Literal.toValue] at hv; rw [hv, h2]; exact .inl hacc'
  · simp [Literal.toValue]
  · intro f hf v hv
    simp only [List.mem_cons, List.not_mem_nil, or_false] at hf
    rcases hf with rfl | rfl
    · simp [Literal.toValue] at hv; rw [hv]; exact hacc
    · simp [Literal.toValue] at hv; rw [hv]; exact hacc'
  · intro k v hv
    simp only [List.mem_cons, List.not_mem_nil, or_false, Prod.mk.injEq] at hv
    rcases hv with ⟨rfl, _⟩ | ⟨rfl, _⟩
    · exact ⟨_, .head _, rfl⟩
    · exact ⟨_, .tail _ (.head _), rfl⟩
  · simp [RecordFits, Literal.toValue]

end Cddl
