import Verif.Props.C29
import Verif.Props.C86
import Verif.Spec.NotJson

/-! # C89  A schema that asks for what JSON cannot express accepts no JSON -/

namespace Cddl

theorem lastPair_mem {α : Type} {ps : List (α × α)} {k v : α} (h : LastPair ps k v) : (k, v) ∈ ps := by
  obtain ⟨pre, post, rfl, _⟩ := h
  simp

mutual
theorem JsonIs.isJson : ∀ {j : Json} {v : Value}, JsonIs j v → IsJson v
  | _, _, .null => .null
  | _, _, .bool b => .bool b
  | _, _, .nat n => .integer n
  | _, _, .negative i => .integer i
  | _, _, .float f => .float f
  | _, _, .string s => .text s
  | _, _, .array h => .array h.areJson
  | _, _, .object h _ hm => .map (fun p hp => (h.areJson p (lastPair_mem ((hm p.1 p.2).mp hp))).1)
      (fun p hp => (h.areJson p (lastPair_mem ((hm p.1 p.2).mp hp))).2)
theorem JsonsAre.areJson : ∀ {j : List Json} {v : List Value}, JsonsAre j v → ∀ x ∈ v, IsJson x
  | _, _, .nil => fun _ h => nomatch h
  | _, _, .cons h hs => fun _ hx => (List.mem_cons.mp hx).elim (fun e => e ▸ h.isJson) (hs.areJson _)
theorem JsonPairsAre.areJson : ∀ {j : List (String × Json)} {v : List (Value × Value)}, JsonPairsAre j v →
    ∀ p ∈ v, (∃ s, p.1 = .text s) ∧ IsJson p.2
  | _, _, .nil => fun _ h => nomatch h
  | _, _, .cons h hs => fun _ hx => (List.mem_cons.mp hx).elim (fun e => e ▸ ⟨⟨_, rfl⟩, h.isJson⟩) (hs.areJson _)
end

/-- What is to be shown of a type. -/
def Refuses (env : Env) (key : Bool) (c : Ctx) (n : Node) : Prop :=
  ∀ v : Value, v.WF → IsJson v → (key = true → ∃ s, v = .text s) → ¬ Accepts env c n v

section
variable {env : Env} {key : Bool} {c c' : Ctx}

theorem refuses_literal {l : Literal} (h : l.notJson key = true) : Refuses env key c (.literal l) := by
  intro v _ hj hk ha
  have ha : (lim env).val v (.literal l) c = .ok () := ha
  rw [val_eq] at ha
  simp only [valBody, validateLiteral] at ha
  split at ha
  · rename_i he
    have e : v = l.toValue := (Value.cmp_eq _ _).mp (by simpa [Value.beq] using he)
    subst e
    cases l with
    | bytes b => cases hj
    | text s => cases h
    | _ => obtain ⟨s, hs⟩ := hk h; cases hs
  · cases ha

theorem refuses_prelude {p : PreludeType} (h : p.notJson key = true) : Refuses env key c (.prelude p) := by
  intro v _ hj hk ha
  have ha : (lim env).val v (.prelude p) c = .ok () := ha
  rw [val_eq] at ha
  simp only [valBody] at ha
  cases p with
  | bstr => cases hj <;> cases ha
  | any => cases h
  | tstr => cases h
  | _ => obtain ⟨s, rfl⟩ := hk h; cases ha

theorem refuses_cbor {n : Node} : Refuses env key c (.ctlCbor n) := by
  intro v _ hj _ ha
  have ha : (lim env).val v (.ctlCbor n) c = .ok () := ha
  rw [val_eq] at ha
  simp only [valBody] at ha
  cases hj <;> cases ha

theorem refuses_size {arg : Node} : Refuses env key c (.ctl .size (.prelude .bstr) arg) := by
  intro v _ hj _ ha
  have ha : (lim env).val v (.ctl .size (.prelude .bstr) arg) c = .ok () := ha
  rw [val_eq] at ha
  simp only [valBody, validateControl, validateControlSize] at ha
  obtain ⟨_, _, ha⟩ := bind_ok ha
  obtain ⟨sz, _, ha⟩ := bind_ok ha
  obtain ⟨tn, ht, ha⟩ := bind_ok ha
  rw [chase_eq] at ht
  cases ht
  simp only [validateSizeBstr] at ha
  obtain ⟨se, _, ha⟩ := bind_ok ha
  split at ha
  · cases ha
  · cases hj <;> cases ha

theorem refuses_keyArray {l : List Node} : Refuses env true c (.array l) := by
  intro v _ _ hk ha
  obtain ⟨s, rfl⟩ := hk rfl
  have ha : (lim env).val (.text s) (.array l) c = .ok () := ha
  rw [val_eq] at ha
  cases ha

theorem refuses_keyMap {l : List Node} : Refuses env true c (.map l) := by
  intro v _ _ hk ha
  obtain ⟨s, rfl⟩ := hk rfl
  have ha : (lim env).val (.text s) (.map l) c = .ok () := ha
  rw [val_eq] at ha
  cases ha

theorem refuses_rule {s : String} {as : List Node} {n : Node} (hl : c.lookupRule env s as = .ok (n, c'))
    (h : Refuses env key c' n) : Refuses env key c (.rule s as) := by
  intro v hw hj hk ha
  have ha : (lim env).val v (.rule s as) c = .ok () := ha
  rw [val_eq] at ha
  simp only [valBody, validateRule, hl] at ha
  exact h v hw hj hk ha

theorem refuses_choice {l : List Node} (h : ∀ n ∈ l, Refuses env key c n) : Refuses env key c (.choice l) := by
  intro v hw hj hk ha
  have ha : (lim env).val v (.choice l) c = .ok () := ha
  rw [val_eq] at ha
  obtain ⟨n, hn, ha⟩ := choiceLoop_some ha
  exact h n hn v hw hj hk ha

theorem refuses_group {n : Node} (h : Refuses env key c n) : Refuses env key c (.group [n]) := by
  intro v hw hj hk ha
  have ha : (lim env).val v (.group [n]) c = .ok () := ha
  rw [val_eq] at ha
  exact h v hw hj hk ha

theorem refuses_array {l : List Node} {n : Node} (hn : n ∈ l)
    (h : ∀ xs : List Value, (∀ x ∈ xs, x.WF) → (∀ x ∈ xs, IsJson x) → ¬ Filled env xs c n) : Refuses env key c (.array l) := by
  intro v hw hj hk ha
  cases hj with
  | array hj => exact h _ (fun x hx => wf_elem hw hx) hj (C86_array ha n hn)
  | _ =>
    have ha : (lim env).val _ (.array l) c = .ok () := ha
    rw [val_eq] at ha
    cases ha

theorem refuses_map {l : List Node} {n : Node} (hn : n ∈ l)
    (h : ∀ m : VMap, (∀ p ∈ m, p.1.WF ∧ p.2.WF) → (∀ p ∈ m, ∃ s, p.1 = .text s) → (∀ p ∈ m, IsJson p.2) →
      ¬ FilledM env m c n) : Refuses env key c (.map l) := by
  intro v hw hj hk ha
  cases hj with
  | map h1 h2 => exact h _ (fun p hp => wf_pair hw.2 hp) h1 h2 (C86_map hw ha n hn)
  | _ =>
    have ha : (lim env).val _ (.map l) c = .ok () := ha
    rw [val_eq] at ha
    cases ha

theorem unfilled_alone {n : Node} {xs : List Value} (he : n.isElement = true) (hk : ∀ k t y, n ≠ .keyValue k t y)
    (h : ∀ x ∈ xs, ¬ Accepts env c n x) : ¬ Filled env xs c n := by
  intro hf
  cases hf with
  | alone _ _ hx ha => exact h _ hx ha
  | keyed => exact hk _ _ _ rfl
  | _ => cases he

theorem unfilled_keyed {k t : Node} {y : Bool} {xs : List Value} (h : ∀ x ∈ xs, ¬ Accepts env c t x) :
    ¬ Filled env xs c (.keyValue k t y) := by
  intro hf
  cases hf with
  | alone _ hk => exact hk _ _ _ rfl
  | keyed hx ha => exact h _ hx ha

end

mutual
theorem NotJson.refuses {env : Env} : ∀ {key : Bool} {c : Ctx} {n : Node}, NotJson env key c n → Refuses env key c n
  | _, _, _, .literal h => refuses_literal h
  | _, _, _, .prelude h => refuses_prelude h
  | _, _, _, .cbor => refuses_cbor
  | _, _, _, .size => refuses_size
  | _, _, _, .keyArray => refuses_keyArray
  | _, _, _, .keyMap => refuses_keyMap
  | _, _, _, .rule hl h => refuses_rule hl h.refuses
  | _, _, _, .choice h => refuses_choice fun n hn => (h n hn).refuses
  | _, _, _, .group h => refuses_group h.refuses
  | _, _, _, .array hn h => refuses_array hn fun xs hw hj => h.refuses xs hw hj
  | _, _, _, .map hn h => refuses_map hn fun m hw hk hj => h.refuses m hw hk hj
theorem NotJsonElement.refuses {env : Env} : ∀ {c : Ctx} {n : Node}, NotJsonElement env c n →
    ∀ xs : List Value, (∀ x ∈ xs, x.WF) → (∀ x ∈ xs, IsJson x) → ¬ Filled env xs c n
  | _, _, .alone he hk h => fun xs hw hj hf => unfilled_alone he hk (fun x hx => h.refuses x (hw x hx) (hj x hx) nofun) hf
  | _, _, .keyed h => fun xs hw hj hf => unfilled_keyed (fun x hx => h.refuses x (hw x hx) (hj x hx) nofun) hf
  | _, _, .rule hl h => fun xs hw hj hf => by
    cases hf with
    | alone he => cases he
    | rule hl' hf => rw [hl] at hl'; cases hl'; exact h.refuses xs hw hj hf
  | _, _, .unwrap hl hn h => fun xs hw hj hf => by
    cases hf with
    | alone he => cases he
    | unwrap hl' hf => rw [hl] at hl'; cases hl'; exact h.refuses xs hw hj (hf _ hn)
  | _, _, .choice h => fun xs hw hj hf => by
    cases hf with
    | alone he => cases he
    | choice hn hf => exact (h _ hn).refuses xs hw hj hf
  | _, _, .group hn h => fun xs hw hj hf => by
    cases hf with
    | alone he => cases he
    | group hf => exact h.refuses xs hw hj (hf _ hn)
  | _, _, .occur ho h => fun xs hw hj hf => by
    cases hf with
    | alone he => cases he
    | none h0 => exact ho h0
    | some hf => exact h.refuses xs hw hj hf
theorem NotJsonPair.refuses {env : Env} : ∀ {c : Ctx} {n : Node}, NotJsonPair env c n →
    ∀ m : VMap, (∀ p ∈ m, p.1.WF ∧ p.2.WF) → (∀ p ∈ m, ∃ s, p.1 = .text s) → (∀ p ∈ m, IsJson p.2) → ¬ FilledM env m c n
  | _, _, .key h => fun m hw hk hj hf => by
    cases hf with
    | pair hp h1 _ =>
      obtain ⟨s, e⟩ := hk _ hp
      exact h.refuses _ (hw _ hp).1 (e ▸ .text s) (fun _ => ⟨s, e⟩) h1
  | _, _, .value h => fun m hw hk hj hf => by
    cases hf with
    | pair hp _ h2 => exact h.refuses _ (hw _ hp).2 (hj _ hp) nofun h2
  | _, _, .rule hl h => fun m hw hk hj hf => by
    cases hf with
    | rule hl' hf => rw [hl] at hl'; cases hl'; exact h.refuses m hw hk hj hf
  | _, _, .unwrap hl hn h => fun m hw hk hj hf => by
    cases hf with
    | unwrap hl' hf => rw [hl] at hl'; cases hl'; exact h.refuses m hw hk hj (hf _ hn)
  | _, _, .choice h => fun m hw hk hj hf => by
    cases hf with
    | choice hn hf => exact (h _ hn).refuses m hw hk hj hf
  | _, _, .group hn h => fun m hw hk hj hf => by
    cases hf with
    | group hf => exact h.refuses m hw hk hj (hf _ hn)
  | _, _, .occur ho h => fun m hw hk hj hf => by
    cases hf with
    | none h0 => exact ho h0
    | some hf => exact h.refuses m hw hk hj hf
end

/-- C89.  A type that cannot do without a byte string, or without a key that is not a text, accepts no JSON value. -/
theorem C89_types {env : Env} {c : Ctx} {n : Node} (h : NotJson env false c n) {v : Value} (hw : v.WF) (hv : IsJson v) :
    ¬ Accepts env c n v :=
  h.refuses v hw hv nofun

/-- C89.  For whole calls: if the last rule of the name asks for such a thing, no JSON text is accepted. -/
theorem C89_json {l : Libs} {name cddl : String} {t : RuleTable} {rd : RuleDef} (ht : flattenFromStr l cddl = .ok t)
    (hr : LastRule t name rd) (hn : NotJson (l.env t) false top rd.node) (json : String) :
    validateJsonStr l name cddl json ≠ .ok () := by
  intro h
  unfold validateJsonStr findRule at h
  rw [ht] at h
  simp only [Res.bind] at h
  rw [find_last.mpr hr] at h
  cases hj : l.jsonDecode json with
  | error e => rw [hj] at h; cases h
  | ok j =>
    rw [hj] at h
    obtain ⟨v, hv, hi⟩ := json_ok j
    simp only [hv, Res.ofExcept] at h
    unfold doValidate at h
    split at h
    · cases h
    · exact C89_types hn (j.toValue_WF _ hv) hi.isJson h

/-- C89, an instance: a schema with a signature in bytes, two names and a group further down, and one with a number for
a key.  No JSON text is accepted by either. -/
theorem C89_example :
    (∀ json, validateJsonStr demoLibs "message" "message = {text: tstr, signed: sig}  sig = [by: tstr / int, bstr .size 4]" json
      ≠ .ok ()) ∧
    (∀ json, validateJsonStr demoLibs "point" "point = {1: int, ? 2: int}" json ≠ .ok ()) := by
  have h1 : flattenFromStr demoLibs "message = {text: tstr, signed: sig}  sig = [by: tstr / int, bstr .size 4]" = .ok [
      ("message", ⟨[], .map [.keyValue (.literal (.text "text")) (.prelude .tstr) true,
        .keyValue (.literal (.text "signed")) (.rule "sig" []) true]⟩),
      ("sig", ⟨[], .array [.keyValue (.literal (.text "by")) (.choice [.prelude .tstr, .prelude .int]) true,
        .ctl .size (.prelude .bstr) (.literal (.int 4))]⟩)] := flattenFromStr_same (by decide +kernel)
  have h2 : flattenFromStr demoLibs "point = {1: int, ? 2: int}" = .ok [
      ("point", ⟨[], .map [.keyValue (.literal (.int 1)) (.prelude .int) true,
        .occur .optional (.keyValue (.literal (.int 2)) (.prelude .int) true)]⟩)] := flattenFromStr_same (by decide +kernel)
  refine ⟨fun json => C89_json h1 (find_last.mp rfl) ?_ json, fun json => C89_json h2 (find_last.mp rfl) ?_ json⟩
  · exact .map (.tail _ (.head _)) (.value (.rule rfl (.array (.tail _ (.head _)) (.alone rfl (by simp) .size))))
  · exact .map (.head _) (.key (.literal rfl))

/-- The schemas are not empty: there is CBOR data for both. -/
example : Accepts (demoEnv [("sig", ⟨[], .array [.keyValue (.literal (.text "by")) (.choice [.prelude .tstr, .prelude .int]) true,
      .ctl .size (.prelude .bstr) (.literal (.int 4))]⟩)]) top
    (.map [.keyValue (.literal (.text "text")) (.prelude .tstr) true, .keyValue (.literal (.text "signed")) (.rule "sig" []) true])
    (.map [(.text "text", .text "x"), (.text "signed", .array [.integer 1, .bytes [1, 2, 3, 4]])]) ∧
    Accepts (demoEnv []) top (.map [.keyValue (.literal (.int 1)) (.prelude .int) true,
      .occur .optional (.keyValue (.literal (.int 2)) (.prelude .int) true)]) (.map [(.integer 1, .integer 5)]) :=
  ⟨accepts_of_fuel 60 (by decide +kernel), accepts_of_fuel 60 (by decide +kernel)⟩

/-- C89, why it must not be optional: `[? bstr]` accepts the JSON value `[]`. -/
theorem C89_optional : Accepts (demoEnv []) top (.array [.occur .optional (.prelude .bstr)]) (.array []) ∧ IsJson (.array []) :=
  ⟨accepts_of_fuel 60 (by decide), .array nofun⟩

end Cddl
