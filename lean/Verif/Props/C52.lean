import Verif.Props.C51

/-! # C52  Rewriting a schema without changing what it says

If each of two schemas is a loosening of the other (C51), the two give the same verdict: naming a type or writing it out,
reordering the options of a choice, writing `0*1` for `?`, and so on, as far as the tests of C15 and C49 hold. -/

namespace Cddl

/-- The two answers are both yes, or both a mismatch, or one is an error of the schema or of the recursion limit. -/
inductive SameAnswer : Res Unit → Res Unit → Prop
  | accepted : SameAnswer (.ok ()) (.ok ())
  | mismatch (m m') : SameAnswer (.err (.mismatch m)) (.err (.mismatch m'))
  | first {e} (r) : e.isFatal = true → SameAnswer (.err e) r
  | second {e} (r) : e.isFatal = true → SameAnswer r (.err e)

/-- C52.  Two types of which each is a loosening of the other describe the same data. -/
theorem C52_meaning {env env' : Env} {D D' : String → Use → Prop} (hD : LoosenedRules env env' D)
    (hD' : LoosenedRules env' env D') {n n' : Node} (hw : Wider env env' D [] .type n n')
    (hw' : Wider env' env D' [] .type n' n) {v : Value} (hv : v.WF) : Sat env .root n v ↔ Sat env' .root n' v :=
  ⟨C51_meaning hD hw hv, C51_meaning hD' hw' hv⟩

theorem Looser.mapSame {env env' : Env} {D : String → Use → Prop} {ps : List String} {ms ms' : List Node}
    (h : Entries env env' D ps .member ms ms') : Looser env env' D ps .type (.map ms) (.map ms') := by
  have := Looser.map [] h fun e he => absurd he List.not_mem_nil
  rwa [List.append_nil] at this

theorem lastRule_unique {t : RuleTable} {name : String} {a b : RuleDef} (h : LastRule t name a) (h' : LastRule t name b) :
    a = b := Option.some.inj ((find_last.mpr h).symm.trans (find_last.mpr h'))

/-- C52 for tables of rules. -/
theorem C52_tables (l : Libs) {t t' : RuleTable} {name : String} (hl : Loosened (l.env t) (l.env t') name)
    (hl' : Loosened (l.env t') (l.env t) name) (hu : t.undoable name = true) (hu' : t'.undoable name = true)
    (hp : t.predictive name = true) (hp' : t'.predictive name = true) {rd rd' : RuleDef} (hr : LastRule t name rd)
    (hr' : LastRule t' name rd') {v : Value} (hv : v.WF) :
    SameAnswer (doValidate (l.env t) v rd) (doValidate (l.env t') v rd') := by
  by_cases hn : rd.params = []
  · obtain ⟨d, h1, h2, h3⟩ := hl.rule hr hn
    cases lastRule_unique h1 hr'
    obtain ⟨d, h4, h5, h6⟩ := hl'.rule hr' h2
    cases lastRule_unique h4 hr
    rcases C49_exact l hp hu hr hn hv with ⟨a, sa⟩ | ⟨m, a, sa⟩ | ⟨e, a, fa⟩
    · rcases C49_exact l hp' hu' hr' h2 hv with ⟨b, sb⟩ | ⟨m', b, sb⟩ | ⟨e, b, fb⟩
      · rw [a, b]; exact .accepted
      · exact absurd (h3 v hv sa) sb
      · rw [b]; exact .second _ fb
    · rcases C49_exact l hp' hu' hr' h2 hv with ⟨b, sb⟩ | ⟨m', b, sb⟩ | ⟨e, b, fb⟩
      · exact absurd (h6 v hv sb) sa
      · rw [a, b]; exact .mismatch _ _
      · rw [b]; exact .second _ fb
    · rw [a]; exact .first _ fa
  · have h : doValidate (l.env t) v rd = .err .genericError := by
      unfold doValidate
      rw [if_pos hn]
    rw [h]
    exact .first _ rfl

/-- C52 for `validate_json_str`. -/
theorem C52_json_str (l : Libs) {name old new : String} {t t' : RuleTable} (ht : flattenFromStr l old = .ok t)
    (ht' : flattenFromStr l new = .ok t') (hl : Loosened (l.env t) (l.env t') name)
    (hl' : Loosened (l.env t') (l.env t) name) (hu : t.undoable name = true) (hu' : t'.undoable name = true)
    (hp : t.predictive name = true) (hp' : t'.predictive name = true) (json : String) :
    SameAnswer (validateJsonStr l name old json) (validateJsonStr l name new json) := by
  obtain ⟨tree, h1, h2⟩ := flattenFromStr_stages ht
  obtain ⟨tree', h1', h2'⟩ := flattenFromStr_stages ht'
  cases hf : t.find name with
  | none =>
    rw [(C44_json_str l name old json _).mpr (.noRule h1 h2 (RuleTable.find_none.mp hf))]
    exact .first _ rfl
  | some rd =>
    have hr := find_last.mp hf
    cases hd : l.jsonDecode json with
    | error m =>
      rw [(C44_json_str l name old json _).mpr (.data h1 h2 hr (.notJson hd))]
      exact .first _ rfl
    | ok j =>
      obtain ⟨v, hw, hj⟩ := json_ok j
      cases hf' : t'.find name with
      | none =>
        rw [(C44_json_str l name new json _).mpr (.noRule h1' h2' (RuleTable.find_none.mp hf'))]
        exact .second _ rfl
      | some rd' =>
        have hr' := find_last.mp hf'
        rw [validateJsonStr_data ht hr hd hj, validateJsonStr_data ht' hr' hd hj]
        exact C52_tables l hl hl' hu hu' hp hp' hr hr' hj.wf

/-- C52 for `validate_cbor_bytes`. -/
theorem C52_cbor_bytes (l : Libs) {name old new : String} {t t' : RuleTable} (ht : flattenFromStr l old = .ok t)
    (ht' : flattenFromStr l new = .ok t') (hl : Loosened (l.env t) (l.env t') name)
    (hl' : Loosened (l.env t') (l.env t) name) (hu : t.undoable name = true) (hu' : t'.undoable name = true)
    (hp : t.predictive name = true) (hp' : t'.predictive name = true) (cbor : List UInt8) :
    SameAnswer (validateCborBytes l name old cbor) (validateCborBytes l name new cbor) := by
  obtain ⟨tree, h1, h2⟩ := flattenFromStr_stages ht
  obtain ⟨tree', h1', h2'⟩ := flattenFromStr_stages ht'
  cases hf : t.find name with
  | none =>
    rw [(C44_cbor_bytes l name old cbor _).mpr (.noRule h1 h2 (RuleTable.find_none.mp hf))]
    exact .first _ rfl
  | some rd =>
    have hr := find_last.mp hf
    cases hd : l.cborDecode cbor with
    | error m =>
      rw [(C44_cbor_bytes l name old cbor _).mpr (.data h1 h2 hr (.notCbor hd))]
      exact .first _ rfl
    | ok c =>
      cases hg : c.hasTag with
      | true =>
        rw [(C44_cbor_bytes l name old cbor _).mpr (.data h1 h2 hr (.tagged hd hg))]
        exact .first _ rfl
      | false =>
        cases hf' : t'.find name with
        | none =>
          rw [(C44_cbor_bytes l name new cbor _).mpr (.noRule h1' h2' (RuleTable.find_none.mp hf'))]
          exact .second _ rfl
        | some rd' =>
          have hr' := find_last.mp hf'
          obtain ⟨v, hv⟩ := (cbor_err c).2 hg
          have hc := (cbor_ok c v).mp hv
          rw [validateCborBytes_data ht hr hd hc, validateCborBytes_data ht' hr' hd hc]
          exact C52_tables l hl hl' hu hu' hp hp' hr hr' hc.wf

/-! ## A concrete case -/

def c52Old : String := "msg = {? id: int / tstr, list: [* (0..10 / bool)]}"
def c52New : String := "msg = {0*1 id: key, list: [* item]} key = tstr / int item = bool / 0..10"

def c52OldTable : RuleTable := [
  ("msg", ⟨[], .map [
    .occur .optional (.keyValue (.literal (.text "id")) (.choice [.prelude .int, .prelude .tstr]) true),
    .keyValue (.literal (.text "list")) (.array [.occur .zeroOrMore
      (.choice [.range (.literal (.int 0)) (.literal (.int 10)) true, .prelude .bool])]) true]⟩)]

def c52NewTable : RuleTable := [
  ("msg", ⟨[], .map [
    .occur (.numbered 0 1) (.keyValue (.literal (.text "id")) (.rule "key" []) true),
    .keyValue (.literal (.text "list")) (.array [.occur .zeroOrMore (.rule "item" [])]) true]⟩),
  ("key", ⟨[], .choice [.prelude .tstr, .prelude .int]⟩),
  ("item", ⟨[], .choice [.prelude .bool, .range (.literal (.int 0)) (.literal (.int 10)) true]⟩)]

example : flattenFromStr demoLibs c52Old = .ok c52OldTable ∧ flattenFromStr demoLibs c52New = .ok c52NewTable :=
  ⟨flattenFromStr_same (by decide +kernel), flattenFromStr_same (by decide +kernel)⟩

example : c52OldTable.undoable "msg" = true ∧ c52NewTable.undoable "msg" = true ∧
    c52OldTable.predictive "msg" = true ∧ c52NewTable.predictive "msg" = true := by decide +kernel

theorem c52_loosened (l : Libs) : Loosened (l.env c52OldTable) (l.env c52NewTable) "msg" := by
  refine ⟨fun s u => s = "msg" ∧ u = .type, ⟨?_, rfl, rfl⟩, rfl, rfl⟩
  rintro s u d ⟨rfl, rfl⟩ hd
  cases hd
  refine ⟨_, rfl, rfl, .core (.mapSame (.cons (.core (.occur (.inr rfl) (fun k h => ?_)
      (.core (.memberKey _ _ (.core (.literal _ _)) (.name rfl rfl rfl (.core (.choice rfl
        (.cons (.tail _ (.head _)) (.core (.prelude _ fun _ h => h))
        (.cons (.head _) (.core (.prelude _ fun _ h => h)) (.nil _ _ _)))))))) (.inr (.inr rfl))))
    (.cons (.core (.memberKey _ _ (.core (.literal _ _)) (.core (.array (.cons (.core (.occur (.inl rfl) (fun _ h => h)
      (.name rfl rfl rfl (.core (.choice rfl
        (.cons (.tail _ (.head _)) (.core (.item (.inl rfl) rfl rfl (.core (.rangeWider _ fun _ h => h))))
        (.cons (.head _) (.core (.item (.inl rfl) rfl rfl (.core (.prelude _ fun _ h => h)))) (.nil _ _ _))))))
      (.inl rfl))) (.nil _ _)))))) (.nil _ _))))⟩
  cases h with
  | optional h => exact .numbered (Nat.zero_le _) h

theorem c52_loosened_back (l : Libs) : Loosened (l.env c52NewTable) (l.env c52OldTable) "msg" := by
  refine ⟨fun s u => s = "msg" ∧ u = .type, ⟨?_, rfl, rfl⟩, rfl, rfl⟩
  rintro s u d ⟨rfl, rfl⟩ hd
  cases hd
  refine ⟨_, rfl, rfl, .core (.mapSame (.cons (.core (.occur (.inr rfl) (fun k h => ?_)
      (.core (.memberKey _ _ (.core (.literal _ _)) (.core (.inline rfl rfl rfl (.core (.choice rfl
        (.cons (.tail _ (.head _)) (.core (.prelude _ fun _ h => h))
        (.cons (.head _) (.core (.prelude _ fun _ h => h)) (.nil _ _ _))))))))) (.inr (.inr rfl))))
    (.cons (.core (.memberKey _ _ (.core (.literal _ _)) (.core (.array (.cons (.core (.occur (.inl rfl) (fun _ h => h)
      (.core (.inline rfl rfl rfl (.core (.choice rfl
        (.cons (.tail _ (.head _)) (.core (.item (.inl rfl) rfl rfl (.core (.prelude _ fun _ h => h))))
        (.cons (.head _) (.core (.item (.inl rfl) rfl rfl (.core (.rangeWider _ fun _ h => h)))) (.nil _ _ _)))))))
      (.inl rfl))) (.nil _ _)))))) (.nil _ _))))⟩
  cases h with
  | numbered _ h => exact .optional h

/-- So the two texts give the same verdict on every JSON text. -/
example (json : String) : SameAnswer (validateJsonStr demoLibs "msg" c52Old json) (validateJsonStr demoLibs "msg" c52New json) :=
  C52_json_str demoLibs (flattenFromStr_same (by decide +kernel)) (flattenFromStr_same (by decide +kernel))
    (c52_loosened _) (c52_loosened_back _) (by decide +kernel) (by decide +kernel) (by decide +kernel) (by decide +kernel) json

end Cddl
