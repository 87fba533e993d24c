import Verif.Proofs.Cong
import Verif.Spec.Verdict

/-! # C13  Member keys of array entries are ignored -/

namespace Cddl

theorem sameVerdict_of_er {r s : Res Unit} (h : s.er false = r.er false) : SameVerdict r s := by
  cases r with
  | ok a => cases s <;> simp_all [Res.er, SameVerdict]
  | panic => cases s <;> simp_all [Res.er, SameVerdict]
  | fuel => cases s <;> simp_all [Res.er, SameVerdict]
  | err e =>
    cases s with
    | err e' =>
      simp only [Res.er, Res.err.injEq] at h
      cases e <;> cases e' <;> simp_all [Err.er, SameVerdict, Err.isFatal]
    | _ => simp_all [Res.er]

/-- `t'` is `t` with member keys of array entries changed, or removed from entries whose type is a
single item by its form, anywhere in the rules. -/
def KeyVariant (t t' : RuleTable) : Prop :=
  All2 (fun p p' => p.1 = p'.1 ∧ p.2.params = p'.2.params ∧ Cong Eq true false p.2.node p'.2.node) t t'

theorem KeyVariant.find {t t' : RuleTable} (h : KeyVariant t t') (s : String) :
    (t.find s = none ∧ t'.find s = none) ∨ ∃ d d', t.find s = some d ∧ t'.find s = some d' ∧
      d.params = d'.params ∧ Cong Eq true false d.node d'.node := by
  induction h with
  | nil => exact .inl ⟨rfl, rfl⟩
  | cons h _ ih =>
    rename_i p p' ps ps' _
    obtain ⟨n, d⟩ := p
    obtain ⟨n', d'⟩ := p'
    obtain ⟨rfl, h2, h3⟩ := h
    rcases ih with ⟨e1, e2⟩ | ⟨x, x', e1, e2, e3⟩
    · by_cases hn : n = s
      · exact .inr ⟨d, d', by simp [RuleTable.find, e1, hn], by simp [RuleTable.find, e2, hn], h2, h3⟩
      · exact .inl ⟨by simp [RuleTable.find, e1, hn], by simp [RuleTable.find, e2, hn]⟩
    · exact .inr ⟨x, x', by simp [RuleTable.find, e1], by simp [RuleTable.find, e2], e3⟩

theorem KeyVariant.envRel {t t' : RuleTable} (h : KeyVariant t t') (env : Env) :
    EnvRel Eq true { env with lookup := t.lookup } { env with lookup := t'.lookup } := by
  refine ⟨fun s s' hs => ?_, rfl, rfl, rfl⟩
  subst hs
  rcases h.find s with ⟨e1, e2⟩ | ⟨d, d', e1, e2, e3, e4⟩
  · exact .inl ⟨.missingRule s, by simp [RuleTable.lookup, e1], by simp [RuleTable.lookup, e2]⟩
  · refine .inr ⟨d, d', by simp [RuleTable.lookup, e1], by simp [RuleTable.lookup, e2], by rw [e3], ?_⟩
    refine e4.weaken fun a b hab => ?_
    subst hab
    rw [← e3]
    exact scopeRel_self fun _ => rfl

/-- C13.  Changing member keys of array entries, or removing them from single-item entries, anywhere in
a rule set never changes the verdict on any rule body and any data. -/
theorem C13_keys_ignored (env : Env) (t t' : RuleTable) (h : KeyVariant t t') (n n' : Node)
    (hn : Cong Eq true false n n') (v : Value) :
    SameVerdict (validate { env with lookup := t.lookup } v n top)
      (validate { env with lookup := t'.lookup } v n' top) :=
  sameVerdict_of_er (validate_sim (congSim (h.envRel env)) (c := top) rfl ⟨_, .root 0, hn, trivial⟩ v)

/-- C13: adding keys is the same statement read backwards. -/
theorem C13_keys_added (env : Env) (t t' : RuleTable) (h : KeyVariant t' t) (n n' : Node)
    (hn : Cong Eq true false n' n) (v : Value) :
    SameVerdict (validate { env with lookup := t.lookup } v n top)
      (validate { env with lookup := t'.lookup } v n' top) :=
  (C13_keys_ignored env t' t h n' n hn v).symm

/-- C13 for entries whose type is given by a name: in any scope, an array whose entries are single-item
types gives the same verdict for every choice of keys, including none. -/
theorem C13_named_entries (env : Env) (c : Ctx) (hc : CtxOK c) (ms ms' : List Node) (v : Value)
    (h : All2 (fun m m' => ∃ t, Entry env c m t ∧ Entry env c m' t) ms ms') :
    SameVerdict (validate env v (.array ms) c) (validate env v (.array ms') c) := by
  have key : All2 (fun n n' => ∀ w, SSim false ((lim env).arr n w c) ((lim env).arr n' w c)) ms ms' := by
    refine h.imp fun m m' ⟨t, h1, h2⟩ w => ?_
    have t1 := h1.takesOne
    have t2 := h2.takesOne
    cases hw : w.array with
    | nil =>
      obtain ⟨a, ha⟩ := t1.1 w hw
      obtain ⟨b, hb⟩ := t2.1 w hw
      dsimp only at ha hb
      rw [ha, hb]
      exact .mismatch (by simp)
    | cons x xs =>
      have e1 := t1.2 w x xs hw
      have e2 := t2.2 w x xs hw
      dsimp only at e1 e2
      rw [e1, e2]
      exact .refl _
  have hr := lim_val_returns env v (.array ms) hc
  unfold validate
  rw [val_eq] at hr
  rw [val_eq, val_eq]
  simp only [valBody, validateArray] at hr ⊢
  cases v with
  | array m =>
    dsimp only at hr ⊢
    rcases (seqLoopS_sim key (WArr.new m)).cases with
      ⟨a, h1, h2⟩ | ⟨e, e', w', h1, h2, he⟩ | ⟨h1, h2⟩ | h1
    · rw [h1, h2]; exact .inl rfl
    · rw [h1, h2]
      exact sameVerdict_of_er (by simp [Res.er, he])
    · rw [h1, h2]; exact .inl rfl
    · rw [h1] at hr; simp at hr
  | _ => exact .inl rfl

/-- C13.  Whatever the value of a keyed entry is - a group, a choice of groups, a name -, the entry stands for one element,
matched against the value as a type. -/
theorem C13_keyed_one (env : Env) (c : Ctx) (k t : Node) (cut : Bool) (x : Value) :
    validate env (.array [x]) (.array [.keyValue k t cut]) c = validate env x t c := by
  unfold validate
  rw [val_eq]
  simp only [valBody, validateArray, seqLoopS, WArr.new]
  rw [arr_eq]
  simp only [arrBody, validateArrayValue]
  cases (lim env).val x t c <;> simp [WArr.popFront, SRes.ofRes]

/-- C13.  With one keyed entry, arrays of other lengths are mismatches, unless the first element is an error of the
schema. -/
theorem C13_keyed_length (env : Env) (c : Ctx) (k t : Node) (cut : Bool) :
    (∃ m, validate env (.array []) (.array [.keyValue k t cut]) c = .err (.mismatch m)) ∧
    ∀ x y xs, validate env x t c = .ok () →
      ∃ m, validate env (.array (x :: y :: xs)) (.array [.keyValue k t cut]) c = .err (.mismatch m) := by
  unfold validate
  refine ⟨?_, fun x y xs h => ?_⟩
  · rw [val_eq]
    simp only [valBody, validateArray, seqLoopS, WArr.new]
    rw [arr_eq]
    simp [arrBody, validateArrayValue]
  · rw [val_eq]
    simp only [valBody, validateArray, seqLoopS, WArr.new]
    rw [arr_eq]
    simp [arrBody, validateArrayValue, h, WArr.popFront]

/-- `[x: (int / tstr)]` takes one element. -/
example : validate (demoEnv []) (.array [.text "a"])
    (.array [.keyValue (.literal (.text "x")) (.choice [.prelude .int, .prelude .tstr]) true]) top = .ok () :=
  (C13_keyed_one _ _ _ _ _ _).trans (validate_of_fuel 60 (by decide))

/-- `[a: int, * b: tstr]` against `[int, * c: tstr]`. -/
example : Cong Eq true false
    (.array [.keyValue (.literal (.text "a")) (.prelude .int) true,
      .occur .zeroOrMore (.keyValue (.literal (.text "b")) (.prelude .tstr) true)])
    (.array [.prelude .int, .occur .zeroOrMore (.keyValue (.literal (.text "c")) (.prelude .tstr) true)]) :=
  .array _ (.cons (.dropKey _ _ rfl (.prelude _ _) rfl)
    (.cons (.occur _ (.changeKey _ _ _ _ rfl (.prelude _ _))) (.nil _)))

/-- Removing the key of an entry that names a *group* does change the meaning, so the restriction to
single items is needed: `g = (int, int)`, `[x: g]` against `[g]` on `[1, 2]`. -/
example : let env := demoEnv [("g", ⟨[], .group [.prelude .int, .prelude .int]⟩)]
    validate env (.array [.integer 1, .integer 2]) (.array [.rule "g" []]) top = .ok () ∧
    validate env (.array [.integer 1, .integer 2])
      (.array [.keyValue (.literal (.text "x")) (.rule "g" []) true]) top =
        .err (.unsupported "standalone group") :=
  ⟨validate_of_fuel 60 (by decide), validate_of_fuel 60 (by decide)⟩

end Cddl
