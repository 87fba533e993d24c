import Verif.Proofs.AlikeText
import Verif.Props.C75

/-! # C76  What no schema tells apart -/

namespace Cddl

/-- C76.  Data that the literals of the schema do not tell apart is not told apart by the schema: the results are the
same, with the same message, everywhere in it. -/
theorem C76_blind {S : Literal → Prop} {env : Env} {n : Node} {c : Ctx} {v w : Value} (he : env.Over S) (hn : n.Over S)
    (hc : c.Over S) (hv : v.WF) (hw : w.WF) (h : Alike S v w) : validate env v n c = validate env w n c := by
  unfold validate lim
  simp only
  congr 1
  funext k
  exact (fns_blind he k).val ⟨h, hv, hw⟩ hn hc

theorem valueText_writable {x : ParseExt} {st : Bool} {s : List Char} {v : Ast.Value} (h : ValueText x st s v) (n : Node)
    (hn : flattenValue v = .ok n) : n.Over (Writable x) := by
  have key : ∀ l, n = .literal l → Writable x l → n.Over (Writable x) := by
    rintro l rfl hl y hy
    cases hy with
    | head => exact hl
    | tail _ hy => cases hy
  cases h with
  | uint _ hlt =>
    obtain ⟨i, e, hn⟩ := okBind hn
    cases hn
    unfold numToI128 at e
    split at e
    · cases e; exact key _ rfl ⟨by omega, by exact_mod_cast hlt⟩
    · cases e
  | nint _ hlt =>
    obtain ⟨i, e, hn⟩ := okBind hn
    cases hn
    unfold numToI128 at e
    split at e
    · cases e; exact key _ rfl ⟨by omega, by omega⟩
    · cases e
  | float _ _ _ _ _ _ hf => cases hn; exact key _ rfl ⟨_, hf⟩
  | text => cases hn; exact key _ rfl trivial
  | bytes => cases hn; exact key _ rfl trivial
  | hex => cases hn; exact key _ rfl trivial
  | base64 => cases hn; exact key _ rfl trivial

/-- C76.  The literals of a schema that was read from a text. -/
theorem C76_literals {l : Libs} {cddl : String} {t : RuleTable} (h : flattenFromStr l cddl = .ok t) :
    ∀ p ∈ t, p.2.node.Over (Writable l.parse) := by
  obtain ⟨c, hp, hf⟩ := okBind h
  have hv : ∀ (v : Ast.Value) (n : Node), (∃ s, ValueText l.parse false s v) → flattenValue v = .ok n →
      n.Over (Writable l.parse) := fun v n ⟨s, hs⟩ hn => valueText_writable hs n hn
  refine flatten_over (fun _ => trivial) (fun _ => trivial) hv (fun r hr => ?_) hf
  rcases C47_sound hp with hg | hg
  · exact hg.each (P := fun v => ∃ s, ValueText l.parse false s v) (fun s v h => ⟨s, h⟩) r hr
  · exact hg.each (P := fun v => ∃ s, ValueText l.parse false s v) (fun s v h => ⟨s, h⟩) r hr

/-- C76.  For the rules of a schema text, data is as good as other data that no literal that can be written in a
schema text tells from it. -/
theorem C76_schema {l : Libs} {cddl name : String} {t : RuleTable} {rd : RuleDef} {v w : Value}
    (ht : flattenFromStr l cddl = .ok t) (hr : LastRule t name rd) (hv : v.WF) (hw : w.WF) (h : Alike (Writable l.parse) v w) :
    doValidate (l.env t) v rd = doValidate (l.env t) w rd := by
  have hlit := C76_literals ht
  have he : (l.env t).Over (Writable l.parse) := by
    intro s d hd
    simp only [Libs.env, RuleTable.lookup] at hd
    cases hf : t.find s with
    | none => rw [hf] at hd; cases hd
    | some d' => rw [hf] at hd; cases hd; exact hlit _ (RuleTable.find_mem hf)
  unfold doValidate
  split
  · rfl
  · exact C76_blind he (hlit _ (RuleTable.find_mem (find_last.mpr hr))) trivial hv hw h

/-- C76.  The same for whole calls: CBOR data that converts to alike values gets the same answer, whatever the schema
text and the rule. -/
theorem C76_cbor {l : Libs} {a b : List UInt8} {c d : Cbor} {v w : Value} (ha : l.cborDecode a = .ok c)
    (hb : l.cborDecode b = .ok d) (hc : c.toValue = .ok v) (hd : d.toValue = .ok w) (h : Alike (Writable l.parse) v w)
    (name cddl : String) : validateCborBytes l name cddl a = validateCborBytes l name cddl b := by
  unfold validateCborBytes findRule
  rw [ha, hb]
  simp only [hc, hd]
  cases hf : flattenFromStr l cddl with
  | ok t =>
    simp only [Res.bind]
    cases hfind : t.find name with
    | none => rfl
    | some rd =>
      exact C76_schema hf (find_last.mp hfind) (Cbor.toValue_WF _ _ hc) (Cbor.toValue_WF _ _ hd) h
  | _ => rfl

/-- C76.  And for JSON texts. -/
theorem C76_json {l : Libs} {a b : String} {c d : Json} {v w : Value} (ha : l.jsonDecode a = .ok c)
    (hb : l.jsonDecode b = .ok d) (hc : c.toValue = .ok v) (hd : d.toValue = .ok w) (h : Alike (Writable l.parse) v w)
    (name cddl : String) : validateJsonStr l name cddl a = validateJsonStr l name cddl b := by
  unfold validateJsonStr findRule
  rw [ha, hb]
  simp only [hc, hd]
  cases hf : flattenFromStr l cddl with
  | ok t =>
    simp only [Res.bind]
    cases hfind : t.find name with
    | none => rfl
    | some rd =>
      exact C76_schema hf (find_last.mp hfind) (Json.toValue_WF _ _ hc) (Json.toValue_WF _ _ hd) h
  | _ => rfl

/-- C76.  No schema text tells one integer up to `-2^63` from another; CBOR has such integers down to `-2^64`. -/
theorem C76_low (x : ParseExt) {i j : Int} (hi : i ≤ -2 ^ 63) (hj : j ≤ -2 ^ 63) : Alike (Writable x) (.integer i) (.integer j) :=
  .integer (by omega) (by omega) fun k hk => by
    have := hk.1
    constructor <;> constructor <;> intro h <;> omega

/-- C76.  Nor one NaN from another of the same sign, if no number in a schema text is read as a NaN. -/
theorem C76_nan {x : ParseExt} (hx : ∀ s f, x.parseF64 s = some f → f.isNaN = false) {f g : F64} (hf : f.isNaN = true)
    (hg : g.isNaN = true) (hs : f.neg = g.neg) : Alike (Writable x) (.float f) (.float g) :=
  .float fun h ⟨s, e⟩ => by
    have hh := hx s h e
    refine ⟨?_, ?_, ?_, ?_⟩
    · constructor <;> rintro rfl
      · rw [hh] at hf; cases hf
      · rw [hh] at hg; cases hg
    · replace hf := of_decide_eq_true hf
      replace hg := of_decide_eq_true hg
      replace hh := of_decide_eq_false hh
      unfold F64.mag at hf hg hh
      simp only [F64.ordKey]
      have := f.bits.toNat_lt
      have := g.bits.toNat_lt
      have := h.bits.toNat_lt
      rw [← hs] at hg ⊢
      have e1 : ∀ y : F64, y.neg = true ↔ 2 ^ 63 ≤ y.bits.toNat := fun y => by simp [F64.neg]
      have e2 := e1 f
      have e3 := e1 g
      have e4 := e1 h
      rw [← hs] at e3
      cases hn : f.neg <;> cases hm : h.neg <;> simp only [hn, hm, if_true, if_false, Bool.false_eq_true, false_iff, true_iff] at * <;> omega
    · simp [F64.lt, hf, hg]
    · simp [F64.le, hf, hg]

/-- C76.  For integers that is all: two integers get the same answers from all schema texts exactly if they are equal or
both up to `-2^63` (of the integers that CBOR has, those below `2^64`). -/
theorem C76_integers (l : Libs) (p : PrintExt) {i j : Int} (hi : i < 2 ^ 64) (hj : j < 2 ^ 64) :
    (∀ cddl name t rd, flattenFromStr l cddl = .ok t → LastRule t name rd →
      doValidate (l.env t) (.integer i) rd = doValidate (l.env t) (.integer j) rd) ↔
    i = j ∨ (i ≤ -2 ^ 63 ∧ j ≤ -2 ^ 63) := by
  have hx : Ident "x".toList := ident_of (by unfold EAlpha; decide) (by simp)
  constructor
  · intro h
    by_cases h1 : -2 ^ 63 < i
    · obtain ⟨t, rd, h2, h3, h4⟩ := C75_text (p := p) hx (v := .integer i) (by simp only [Value.Spelled]; exact ⟨h1, hi⟩) trivial
      have := h _ _ t rd h2 h3
      rw [(h4 (.integer i) trivial).mpr rfl] at this
      have := (h4 (.integer j) trivial).mp this.symm
      cases this
      exact .inl rfl
    · by_cases h1' : -2 ^ 63 < j
      · obtain ⟨t, rd, h2, h3, h4⟩ := C75_text (p := p) hx (v := .integer j) (by simp only [Value.Spelled]; exact ⟨h1', hj⟩) trivial
        have := h _ _ t rd h2 h3
        rw [(h4 (.integer j) trivial).mpr rfl] at this
        have := (h4 (.integer i) trivial).mp this
        cases this
        exact .inl rfl
      · exact .inr ⟨by omega, by omega⟩
  · rintro (rfl | ⟨h1, h2⟩) cddl name t rd ht hr
    · rfl
    · exact C76_schema ht hr trivial trivial (C76_low _ h1 h2)

/-- Libraries for the examples: three integers in CBOR. -/
def lowLibs : Libs :=
  { demoLibs with
    cborDecode := fun b =>
      if b = [0x3b, 0x7f, 0xff, 0xff, 0xff, 0xff, 0xff, 0xff, 0xfe] then .ok (.integer (-9223372036854775807))
      else if b = [0x3b, 0x7f, 0xff, 0xff, 0xff, 0xff, 0xff, 0xff, 0xff] then .ok (.integer (-9223372036854775808))
      else if b = [0x3b, 0xff, 0xff, 0xff, 0xff, 0xff, 0xff, 0xff, 0xff] then .ok (.integer (-18446744073709551616))
      else .error "bad cbor" }

/-- C76.  The bound is sharp: `-2^63` and `-2^64` get the same answer from every schema text, `-2^63 + 1` and `-2^63`
do not. -/
theorem C76_example :
    (∀ name cddl, validateCborBytes lowLibs name cddl [0x3b, 0x7f, 0xff, 0xff, 0xff, 0xff, 0xff, 0xff, 0xff] =
      validateCborBytes lowLibs name cddl [0x3b, 0xff, 0xff, 0xff, 0xff, 0xff, 0xff, 0xff, 0xff]) ∧
    validateCborBytes lowLibs "x" "x = -9223372036854775807" [0x3b, 0x7f, 0xff, 0xff, 0xff, 0xff, 0xff, 0xff, 0xfe] = .ok () ∧
    validateCborBytes lowLibs "x" "x = -9223372036854775807" [0x3b, 0x7f, 0xff, 0xff, 0xff, 0xff, 0xff, 0xff, 0xff] ≠ .ok () := by
  refine ⟨?_, ?_, ?_⟩
  · exact C76_cbor (c := .integer (-9223372036854775808)) (d := .integer (-18446744073709551616)) rfl rfl rfl rfl
      (C76_low _ (by decide) (by decide))
  · exact validateCborBytes_of_fuel (k := 10) (by decide +kernel) (by decide)
  · have : validateCborBytes lowLibs "x" "x = -9223372036854775807" [0x3b, 0x7f, 0xff, 0xff, 0xff, 0xff, 0xff, 0xff, 0xff] =
        validateCborBytesF lowLibs 10 "x" "x = -9223372036854775807" [0x3b, 0x7f, 0xff, 0xff, 0xff, 0xff, 0xff, 0xff, 0xff] :=
      validateCborBytes_of_fuel (k := 10) rfl (by decide +kernel)
    rw [this]
    decide +kernel

/-- C76, an example inside a map: the map has a key and a value of the kind, the schema a range. -/
theorem C76_map_example : ∃ env n, (env.Over fun l => l = .int (-5) ∨ l = .int 0) ∧ (n.Over fun l => l = .int (-5) ∨ l = .int 0) ∧
    Alike (fun l => l = .int (-5) ∨ l = .int 0) (.map [(.integer (-9), .integer (-3))]) (.map [(.integer (-7), .integer (-1))]) ∧
    Accepts env top n (.map [(.integer (-9), .integer (-3))]) ∧ Accepts env top n (.map [(.integer (-7), .integer (-1))]) := by
  refine ⟨demoEnv [], .map [.keyValue (.prelude .nint) (.range (.literal (.int (-5))) (.literal (.int 0)) true) false], ?_, ?_, ?_, ?_, ?_⟩
  · intro s rd h; cases h
  · simp [Node.Over, Node.lits, Node.litsL]
  · refine .map (.cons (.integer (by decide) (by decide) ?_) .nil) (.cons (.integer (by decide) (by decide) ?_) .nil)
    · rintro k (hk | hk) <;> cases hk <;> decide
    · rintro k (hk | hk) <;> cases hk <;> decide
  · exact accepts_of_fuel 20 (by decide)
  · exact accepts_of_fuel 20 (by decide)

end Cddl
