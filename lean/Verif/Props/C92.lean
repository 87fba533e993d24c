import Verif.Props.C08
import Verif.Props.C84
import Verif.Props.C89
import Verif.Props.C90
import Verif.Spec.Hopeless

/-! # C92  A contradiction that cannot be avoided makes a schema empty -/

namespace Cddl


section
variable {env : Env} {c c' : Ctx}

theorem never_cbor {n : Node} (h : AcceptsNothing env c n) : AcceptsNothing env c (.ctlCbor n) := by
  intro v hw ha
  have ha : (lim env).val v (.ctlCbor n) c = .ok () := ha
  rw [val_eq] at ha
  simp only [valBody] at ha
  cases v with
  | bytes b =>
    simp only [validateControlCbor] at ha
    split at ha
    · cases ha
    · rename_i j _
      obtain ⟨w, hv, ha⟩ := bind_ok ha
      cases hj : j.toValue with
      | error e => rw [hj] at hv; cases hv
      | ok w' =>
        rw [hj] at hv
        cases hv
        exact h _ (j.toValue_WF _ hj) ha
  | _ => cases ha

theorem never_rule {s : String} {as : List Node} {n : Node} (hl : c.lookupRule env s as = .ok (n, c'))
    (h : AcceptsNothing env c' n) : AcceptsNothing env c (.rule s as) := by
  intro v hw ha
  have ha : (lim env).val v (.rule s as) c = .ok () := ha
  rw [val_eq] at ha
  simp only [valBody, validateRule, hl] at ha
  exact h v hw ha

theorem never_choice {l : List Node} (h : ∀ n ∈ l, AcceptsNothing env c n) : AcceptsNothing env c (.choice l) := by
  intro v hw ha
  have ha : (lim env).val v (.choice l) c = .ok () := ha
  rw [val_eq] at ha
  obtain ⟨n, hn, ha⟩ := choiceLoop_some ha
  exact h n hn v hw ha

theorem never_group {n : Node} (h : AcceptsNothing env c n) : AcceptsNothing env c (.group [n]) := by
  intro v hw ha
  have ha : (lim env).val v (.group [n]) c = .ok () := ha
  rw [val_eq] at ha
  exact h v hw ha

theorem never_array {l : List Node} {n : Node} (hn : n ∈ l)
    (h : ∀ xs : List Value, (∀ x ∈ xs, x.WF) → ¬ Filled env xs c n) : AcceptsNothing env c (.array l) := by
  intro v hw ha
  cases v with
  | array xs => exact h _ (fun x hx => wf_elem hw hx) (C86_array ha n hn)
  | _ =>
    have ha : (lim env).val _ (.array l) c = .ok () := ha
    rw [val_eq] at ha
    cases ha

theorem never_map {l : List Node} {n : Node} (hn : n ∈ l)
    (h : ∀ m : VMap, (∀ p ∈ m, p.1.WF ∧ p.2.WF) →
      ¬ FilledM env m c n) : AcceptsNothing env c (.map l) := by
  intro v hw ha
  cases v with
  | map m => exact h _ (fun p hp => wf_pair hw.2 hp) (C86_map hw ha n hn)
  | _ =>
    have ha : (lim env).val _ (.map l) c = .ok () := ha
    rw [val_eq] at ha
    cases ha

end

mutual
theorem Hopeless.never {env : Env} {B : Ctx → Node → Prop} (hB : ∀ c n, B c n → AcceptsNothing env c n) :
    ∀ {c : Ctx} {n : Node}, Hopeless env B c n → AcceptsNothing env c n
  | _, _, .now h => hB _ _ h
  | _, _, .cbor h => never_cbor (h.never hB)
  | _, _, .rule hl h => never_rule hl (h.never hB)
  | _, _, .choice h => never_choice fun n hn => (h n hn).never hB
  | _, _, .group h => never_group (h.never hB)
  | _, _, .array hn h => never_array hn fun xs hw => h.never hB xs hw
  | _, _, .map hn h => never_map hn fun m hw => h.never hB m hw
theorem HopelessElement.never {env : Env} {B : Ctx → Node → Prop} (hB : ∀ c n, B c n → AcceptsNothing env c n) :
    ∀ {c : Ctx} {n : Node}, HopelessElement env B c n →
    ∀ xs : List Value, (∀ x ∈ xs, x.WF) → ¬ Filled env xs c n
  | _, _, .alone he hk h => fun xs hw hf => unfilled_alone he hk (fun x hx => h.never hB x (hw x hx)) hf
  | _, _, .keyed h => fun xs hw hf => unfilled_keyed (fun x hx => h.never hB x (hw x hx)) hf
  | _, _, .rule hl h => fun xs hw hf => by
    cases hf with
    | alone he => cases he
    | rule hl' hf => rw [hl] at hl'; cases hl'; exact h.never hB xs hw hf
  | _, _, .unwrap hl hn h => fun xs hw hf => by
    cases hf with
    | alone he => cases he
    | unwrap hl' hf => rw [hl] at hl'; cases hl'; exact h.never hB xs hw (hf _ hn)
  | _, _, .choice h => fun xs hw hf => by
    cases hf with
    | alone he => cases he
    | choice hn hf => exact (h _ hn).never hB xs hw hf
  | _, _, .group hn h => fun xs hw hf => by
    cases hf with
    | alone he => cases he
    | group hf => exact h.never hB xs hw (hf _ hn)
  | _, _, .occur ho h => fun xs hw hf => by
    cases hf with
    | alone he => cases he
    | none h0 => exact ho h0
    | some hf => exact h.never hB xs hw hf
theorem HopelessPair.never {env : Env} {B : Ctx → Node → Prop} (hB : ∀ c n, B c n → AcceptsNothing env c n) :
    ∀ {c : Ctx} {n : Node}, HopelessPair env B c n →
    ∀ m : VMap, (∀ p ∈ m, p.1.WF ∧ p.2.WF) → ¬ FilledM env m c n
  | _, _, .key h => fun m hw hf => by
    cases hf with
    | pair hp h1 _ =>
      exact h.never hB _ (hw _ hp).1 h1
  | _, _, .value h => fun m hw hf => by
    cases hf with
    | pair hp _ h2 => exact h.never hB _ (hw _ hp).2 h2
  | _, _, .rule hl h => fun m hw hf => by
    cases hf with
    | rule hl' hf => rw [hl] at hl'; cases hl'; exact h.never hB m hw hf
  | _, _, .unwrap hl hn h => fun m hw hf => by
    cases hf with
    | unwrap hl' hf => rw [hl] at hl'; cases hl'; exact h.never hB m hw (hf _ hn)
  | _, _, .choice h => fun m hw hf => by
    cases hf with
    | choice hn hf => exact (h _ hn).never hB m hw hf
  | _, _, .group hn h => fun m hw hf => by
    cases hf with
    | group hf => exact h.never hB m hw (hf _ hn)
  | _, _, .occur ho h => fun m hw hf => by
    cases hf with
    | none h0 => exact ho h0
    | some hf => exact h.never hB m hw hf
end

/-- C92.  If the types `B` accept nothing, a type that cannot do without one of them accepts nothing. -/
theorem C92_types {env : Env} {B : Ctx → Node → Prop} (hB : ∀ c n, B c n → AcceptsNothing env c n) {c : Ctx} {n : Node}
    (h : Hopeless env B c n) : AcceptsNothing env c n :=
  h.never hB

/-- C92.  For whole calls: no JSON text and no CBOR data is accepted. -/
theorem C92_calls {l : Libs} {name cddl : String} {t : RuleTable} {rd : RuleDef} {B : Ctx → Node → Prop}
    (ht : flattenFromStr l cddl = .ok t) (hr : LastRule t name rd) (hB : ∀ c n, B c n → AcceptsNothing (l.env t) c n)
    (hn : Hopeless (l.env t) B top rd.node) (json : String) (cbor : List UInt8) :
    validateJsonStr l name cddl json ≠ .ok () ∧ validateCborBytes l name cddl cbor ≠ .ok () := by
  have no : ∀ v : Value, v.WF → doValidate (l.env t) v rd ≠ .ok () := by
    intro v hv h
    unfold doValidate at h
    split at h
    · cases h
    · exact C92_types hB hn v hv h
  unfold validateJsonStr validateCborBytes findRule
  rw [ht]
  simp only [Res.bind]
  rw [find_last.mpr hr]
  simp only
  constructor
  · cases l.jsonDecode json with
    | error e => simp
    | ok j =>
      simp only
      cases hv : j.toValue with
      | error e => simp [Res.ofExcept]
      | ok v => simpa [Res.ofExcept] using no v (j.toValue_WF v hv)
  · cases l.cborDecode cbor with
    | error e => simp
    | ok j =>
      simp only
      cases hv : j.toValue with
      | error e => simp [Res.ofExcept]
      | ok v => simpa [Res.ofExcept] using no v (j.toValue_WF v hv)

/-- C92.  Contradictions to start with: an integer range without a member, a choice without options, a map with the same
key in two entries, and rules that need each other without an end. -/
inductive Contradicts (env : Env) : Ctx → Node → Prop
  | range {c s e a b i} : Endpoint env c s (.int a) → Endpoint env c e (.int b) → b < a → Contradicts env c (.range s e i)
  | choice {c} : Contradicts env c (.choice [])
  | twice {c l t u x y pre mid post} :
      Contradicts env c (.map (pre ++ .keyValue (.literal l) t x :: mid ++ .keyValue (.literal l) u y :: post))
  | endless {c n S} : Endless S env → n.Needs S → c.Clear S → Contradicts env c n

/-- C92.  They accept nothing. -/
theorem C92_contradictions {env : Env} : ∀ c n, Contradicts env c n → AcceptsNothing env c n := by
  intro c n h v hv ha
  cases h with
  | range hs he hlt => exact C08_empty env c _ _ _ _ _ v hs he hlt ha
  | choice =>
    have ha : (lim env).val v (.choice []) c = .ok () := ha
    rw [val_eq] at ha
    cases ha
  | twice => exact C90_same_key rfl hv ha
  | endless he hn hc => exact C84_endless he hn hc v ha

/-- C92, an instance: there have to be items, an item needs `a`, and `a` is a number from 5 to 1 or a map with two values
for `b`.  Nothing is accepted. -/
theorem C92_example (json : String) (cbor : List UInt8) :
    validateJsonStr demoLibs "m"
      "m = {id: tstr, items: [1*3 item]}  item = {a: r / g, * tstr => any}  r = 5..1  g = {b: int, b: tstr}" json ≠ .ok () ∧
    validateCborBytes demoLibs "m"
      "m = {id: tstr, items: [1*3 item]}  item = {a: r / g, * tstr => any}  r = 5..1  g = {b: int, b: tstr}" cbor ≠ .ok () := by
  have h : flattenFromStr demoLibs
      "m = {id: tstr, items: [1*3 item]}  item = {a: r / g, * tstr => any}  r = 5..1  g = {b: int, b: tstr}" = .ok [
      ("m", ⟨[], .map [.keyValue (.literal (.text "id")) (.prelude .tstr) true,
        .keyValue (.literal (.text "items")) (.array [.occur (.numbered 1 3) (.rule "item" [])]) true]⟩),
      ("item", ⟨[], .map [.keyValue (.literal (.text "a")) (.choice [.rule "r" [], .rule "g" []]) true,
        .occur .zeroOrMore (.keyValue (.prelude .tstr) (.prelude .any) false)]⟩),
      ("r", ⟨[], .range (.literal (.int 5)) (.literal (.int 1)) true⟩),
      ("g", ⟨[], .map [.keyValue (.literal (.text "b")) (.prelude .int) true,
        .keyValue (.literal (.text "b")) (.prelude .tstr) true]⟩)] := flattenFromStr_same (by decide +kernel)
  refine C92_calls h (find_last.mp rfl) C92_contradictions ?_ json cbor
  refine .map (.tail _ (.head _)) (.value (.array (.head _) (.occur (by decide) (.rule rfl (.alone rfl (by simp)
    (.map (.head _) (.value (.choice fun n hn => ?_))))))))
  simp only [List.mem_cons, List.not_mem_nil, or_false] at hn
  rcases hn with rfl | rfl
  · exact .rule rfl (.now (.range (.literal ..) (.literal ..) (by decide)))
  · exact .rule rfl (.now (.twice (pre := []) (mid := []) (post := [])))

/-- C92, why it must not be optional: with `* item` in the place of `1*3 item` there is data for the schema. -/
theorem C92_optional : Accepts (demoEnv [
      ("item", ⟨[], .map [.keyValue (.literal (.text "a")) (.rule "r" []) true]⟩),
      ("r", ⟨[], .range (.literal (.int 5)) (.literal (.int 1)) true⟩)]) top
    (.map [.keyValue (.literal (.text "items")) (.array [.occur .zeroOrMore (.rule "item" [])]) true])
    (.map [(.text "items", .array [])]) :=
  accepts_of_fuel 60 (by decide +kernel)

end Cddl
