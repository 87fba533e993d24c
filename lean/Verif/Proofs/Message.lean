import Verif.Spec.Message
import Verif.Proofs.Single
import Verif.Proofs.Field
import Verif.Proofs.Safe

/-! # What messages say: lemmas -/

namespace Cddl

theorem shows_display (fmt : F64 → String) : ∀ n : Node, Shows fmt n (n.display fmt)
  | .literal (.bool true) => .true
  | .literal (.bool false) => .false
  | .literal (.int i) => .int i
  | .literal (.float f) => .float f
  | .literal (.text s) => .text s
  | .literal (.bytes b) => .bytes b
  | .prelude .any => .any
  | .prelude .nil => .nil
  | .prelude .bool => .bool
  | .prelude .int => .intType
  | .prelude .uint => .uint
  | .prelude .nint => .nint
  | .prelude .float => .floatType
  | .prelude .tstr => .tstr
  | .prelude .bstr => .bstr
  | .keyValue k t cut => by
    rw [Node.display]
    exact .keyValue cut (shows_display fmt k) (shows_display fmt t)
  | .rule s as => .rule s as
  | .choice l => .choice l
  | .map l => .map l
  | .array l => .array l
  | .group l => .group l
  | .occur o n => .occur o n
  | .unwrap s as => .unwrap s as
  | .range a b i => .range a b i
  | .ctl o a b => .ctl o a b
  | .ctlRegexp p => .regexp p
  | .ctlCbor n => .cbor n
  | .choiceify s as => .choiceify s as
  | .choiceifyInline l => .choiceifyInline l

theorem Shows.eq {fmt : F64 → String} {n : Node} {s : String} (h : Shows fmt n s) : n.display fmt = s := by
  induction h with
  | keyValue cut _ _ ih1 ih2 => rw [Node.display, ih1, ih2]
  | _ => rfl

theorem Shows.literal {fmt : F64 → String} {l : Literal} {s : String} (h : Shows fmt (.literal l) s) :
    l.display fmt = s := h.eq

/-! ## Arrays -/

theorem Lacks.eq {env : Env} {c : Ctx} {n : Node} {s : String} (h : Lacks env c n s) :
    ∀ w : WArr, w.array = [] → (lim env).arr n w c = .err (.mismatch s) w := by
  induction h with
  | one h1 h2 h3 h4 =>
    intro w hw
    rw [← h4.eq, arr_eq]
    cases h1 with
    | rule => exact absurd rfl (h2 _ _)
    | choice => exact absurd rfl (h3 _)
    | _ => simp [arrBody, validateArrayValue, hw]
  | keyed k cut h1 =>
    intro w hw
    rw [← h1.eq, arr_eq]
    simp [arrBody, validateArrayValue, hw]
  | rule h1 _ ih =>
    intro w hw
    rw [arr_eq]
    simp only [arrBody, h1]
    exact ih w hw
  | choice f _ ih =>
    intro w hw
    rename_i c l _
    rw [arr_eq]
    simp only [arrBody]
    generalize "choice of " ++ toString l.length = msg
    rename_i h
    clear h
    induction l with
    | nil => rfl
    | cons n ns ih' =>
      simp only [choiceLoopS, ih n (by simp) w hw, Err.isFatal, Bool.false_eq_true, if_false]
      exact ih' (fun m hm => ih m (by simp [hm]))

theorem Single.lacks {env : Env} {c : Ctx} {n : Node} (h : Single env c n) : ∃ s, Lacks env c n s := by
  induction h with
  | rule h1 _ ih => obtain ⟨s, hs⟩ := ih; exact ⟨s, .rule h1 hs⟩
  | choice _ ih =>
    rename_i c l _
    classical
    refine ⟨_, .choice (fun n => if h : ∃ s, Lacks env c n s then h.choose else "") fun n hn => ?_⟩
    have h := ih n hn
    rw [dif_pos h]
    exact h.choose_spec
  | literal => exact ⟨_, .one (by constructor) nofun nofun (shows_display _ _)⟩
  | prelude => exact ⟨_, .one (by constructor) nofun nofun (shows_display _ _)⟩
  | map => exact ⟨_, .one (by constructor) nofun nofun (shows_display _ _)⟩
  | array => exact ⟨_, .one (by constructor) nofun nofun (shows_display _ _)⟩
  | range => exact ⟨_, .one (by constructor) nofun nofun (shows_display _ _)⟩
  | ctl => exact ⟨_, .one (by constructor) nofun nofun (shows_display _ _)⟩
  | ctlRegexp => exact ⟨_, .one (by constructor) nofun nofun (shows_display _ _)⟩
  | ctlCbor => exact ⟨_, .one (by constructor) nofun nofun (shows_display _ _)⟩
  | choiceify => exact ⟨_, .one (by constructor) nofun nofun (shows_display _ _)⟩
  | choiceifyInline => exact ⟨_, .one (by constructor) nofun nofun (shows_display _ _)⟩

theorem Entry.lacks {env : Env} {c : Ctx} {m t : Node} (h : Entry env c m t) : ∃ s, Lacks env c m s := by
  cases h with
  | plain h => exact h.lacks
  | keyed k t cut => exact ⟨_, .keyed k cut (shows_display _ _)⟩

/-- The end of `validateArray`. -/
def arrAnswer : SRes WArr → Res Unit
  | .ok w => if w.array.isEmpty then .ok () else .err (.mismatch "shorter array")
  | .err e _ => .err e
  | .panic => .panic
  | .fuel => .fuel

theorem array_answer {env : Env} {c : Ctx} {ms : List Node} {xs : List Value} :
    validate env (.array xs) (.array ms) c = arrAnswer (seqLoopS (fun m w => (lim env).arr m w c) ms (WArr.new xs)) := by
  unfold validate
  rw [val_eq]
  simp only [valBody, validateArray]
  cases seqLoopS (fun m w => (lim env).arr m w c) ms (WArr.new xs) <;> rfl

theorem TupleSays.eq {env : Env} {c : Ctx} {ms : List Node} {xs : List Value} {r : Res Unit}
    (h : TupleSays env c ms xs r) : ∀ w : WArr, w.array = xs →
      arrAnswer (seqLoopS (fun m w => (lim env).arr m w c) ms w) = r := by
  induction h with
  | done => intro w hw; simp [seqLoopS, arrAnswer, hw]
  | more => intro w hw; simp [seqLoopS, arrAnswer, hw]
  | lack h => intro w hw; simp only [seqLoopS, h.eq w hw, arrAnswer]
  | wrong h h1 h2 =>
    intro w hw
    have := h.takesOne.2 w _ _ hw
    dsimp only at this
    simp only [seqLoopS, this, h1]
    rename_i r
    cases r with
    | ok a => exact absurd rfl h2
    | _ => rfl
  | step h h1 _ ih =>
    intro w hw
    have := h.takesOne.2 w _ _ hw
    dsimp only at this
    unfold Accepts at h1
    obtain ⟨w', h3, h4⟩ := popFront_ok hw
    simp only [seqLoopS, this, h1, h3]
    exact ih w' h4

theorem TupleSays.exists {env : Env} {c : Ctx} {ms ts : List Node} (h : All2 (Entry env c) ms ts) :
    ∀ xs, ∃ r, TupleSays env c ms xs r := by
  induction h with
  | nil =>
    intro xs
    cases xs with
    | nil => exact ⟨_, .done⟩
    | cons x xs => exact ⟨_, .more x xs⟩
  | cons hm _ ih =>
    rename_i m t ms ts _
    intro xs
    cases xs with
    | nil => obtain ⟨s, hs⟩ := hm.lacks; exact ⟨_, .lack hs⟩
    | cons x xs =>
      by_cases ha : Accepts env c t x
      · obtain ⟨r, hr⟩ := ih xs; exact ⟨r, .step hm ha hr⟩
      · exact ⟨_, .wrong hm rfl ha⟩

/-! ## Maps -/

/-- The end of `validateMap`. -/
def mapAnswer : SRes WMap → Res Unit
  | .ok w => if w.map.isEmpty then .ok () else .err (.mismatch "shorter map")
  | .err e _ => .err e.eraseMapcut
  | .panic => .panic
  | .fuel => .fuel

theorem map_answer {env : Env} {c : Ctx} {ms : List Node} {m : VMap} :
    validate env (.map m) (.map ms) c = mapAnswer (seqLoopS (fun m w => (lim env).map m w c) ms (WMap.new m)) := by
  unfold validate
  rw [val_eq]
  simp only [valBody, validateMap]
  cases seqLoopS (fun m w => (lim env).map m w c) ms (WMap.new m) <;> rfl

theorem RecordSays.eq {env : Env} {c : Ctx} {fs : List Field} {m : VMap} {r : Res Unit}
    (h : RecordSays env c fs m r) : (∀ p ∈ m, ∀ f ∈ fs, ∀ s, validate env p.2 f.type c ≠ .err (.mapCut s)) →
    ∀ w : WMap, VMap.PW w.map → w.map = m →
      mapAnswer (seqLoopS (fun m w => (lim env).map m w c) (fs.map Field.node) w) = r := by
  induction h with
  | done => intro _ w _ hm; simp [seqLoopS, mapAnswer, hm]
  | more => intro _ w _ hm; simp [seqLoopS, mapAnswer, hm]
  | missing h h1 h2 =>
    intro _ w hw hm
    subst hm
    rename_i f fs _
    simp only [List.map_cons, seqLoopS, Field.node, h, Bool.false_eq_true, if_false, keyValue_eq, keyvalue_absent hw h1,
      h2.literal, mapAnswer, Err.eraseMapcut]
  | skip h h1 _ ih =>
    intro hn w hw hm
    subst hm
    simp only [List.map_cons, seqLoopS, Field.node, h, if_true, optional_eq, keyValue_eq, keyvalue_absent hw h1,
      Err.isMismatch]
    exact ih (fun p hp f hf => hn p hp f (by simp [hf])) w hw rfl
  | take h1 h2 _ ih =>
    intro hn w hw hm
    subst hm
    rename_i f fs v r _
    obtain ⟨w', h3, h4⟩ := keyvalue_ok (cut := f.cut) hw h1 h2
    have h5 : (lim env).map f.node w c = .ok w' := by
      unfold Field.node
      split
      · rw [optional_eq, keyValue_eq, h3]
      · rw [keyValue_eq, h3]
    simp only [List.map_cons, seqLoopS, h5]
    refine ih (fun p hp f hf => hn p ?_ f (by simp [hf])) w' ?_ h4
    · exact (List.mem_filter.mp hp).1
    · rw [h4]; exact hw.without _
  | leave h h0 h1 h2 _ ih =>
    intro hn w hw hm
    subst hm
    have hna : ¬ Accepts env c _ _ := fun h => by unfold Accepts at h; rw [h2] at h; cases h
    simp only [List.map_cons, seqLoopS, Field.node, h, h0, if_true, optional_eq, keyValue_eq, keyvalue_bad hw h1 hna, h2,
      Err.isMismatch]
    exact ih (fun p hp f hf => hn p hp f (by simp [hf])) w hw rfl
  | wrong h h1 h2 h3 =>
    intro hn w hw hm
    subst hm
    rename_i f fs v r
    have hcut := hn _ h1 f (by simp)
    dsimp only at hcut
    have hna : ¬ Accepts env c f.type v := fun h => by unfold Accepts at h; rw [h2] at h; exact h3 h
    have hb := keyvalue_bad (cut := f.cut) hw h1 hna
    rw [h2] at hb hcut
    simp only [List.map_cons, seqLoopS, Field.node]
    cases ho : f.optional with
    | false =>
      simp only [Bool.false_eq_true, if_false, keyValue_eq, hb]
      cases r with
      | ok a => exact absurd rfl h3
      | err e =>
        cases f.cut <;> cases e <;> first | rfl | exact absurd rfl (hcut _)
      | _ => rfl
    | true =>
      simp only [if_true, optional_eq, keyValue_eq, hb]
      cases r with
      | ok a => exact absurd rfl h3
      | err e =>
        cases hc : f.cut with
        | true => cases e <;> first | rfl | exact absurd rfl (hcut _)
        | false =>
          cases e with
          | mismatch s => simp [ho, hc] at h
          | mapCut s => exact absurd rfl (hcut _)
          | _ => rfl
      | _ => rfl

theorem RecordSays.exists {env : Env} {c : Ctx} : ∀ (fs : List Field) (m : VMap), ∃ r, RecordSays env c fs m r
  | [], [] => ⟨_, .done⟩
  | [], p :: m => ⟨_, .more p m⟩
  | f :: fs, m => by
    by_cases hk : ∃ v, (f.key.toValue, v) ∈ m
    · obtain ⟨v, hv⟩ := hk
      by_cases ha : Accepts env c f.type v
      · obtain ⟨r, hr⟩ := RecordSays.exists (env := env) (c := c) fs (m.filter fun p => decide (p.1 ≠ f.key.toValue))
        exact ⟨r, .take hv ha hr⟩
      · by_cases h1 : f.optional = false ∨ f.cut = true ∨ ∀ s, validate env v f.type c ≠ .err (.mismatch s)
        · exact ⟨_, .wrong h1 hv rfl ha⟩
        · have h2 : f.optional = true ∧ f.cut = false ∧ ∃ s, validate env v f.type c = .err (.mismatch s) := by
            refine ⟨?_, ?_, ?_⟩
            · cases h : f.optional <;> simp_all
            · cases h : f.cut <;> simp_all
            · exact Classical.byContradiction fun h => h1 (.inr (.inr fun s hs => h ⟨s, hs⟩))
          obtain ⟨h2, h3, s, h4⟩ := h2
          obtain ⟨r, hr⟩ := RecordSays.exists (env := env) (c := c) fs m
          exact ⟨r, .leave h2 h3 hv h4 hr⟩
    · have hk : ∀ v, (f.key.toValue, v) ∉ m := fun v hv => hk ⟨v, hv⟩
      cases ho : f.optional with
      | true =>
        obtain ⟨r, hr⟩ := RecordSays.exists (env := env) (c := c) fs m
        exact ⟨r, .skip ho hk hr⟩
      | false => exact ⟨_, .missing ho hk (shows_display _ _)⟩

end Cddl
