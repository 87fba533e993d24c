import Verif.Proofs.Akin
import Verif.Proofs.Same
import Verif.Props.C04
import Verif.Props.C05
import Verif.Props.C10
import Verif.Props.C11
import Verif.Props.C44
import Verif.Spec.Stages

/-! # C81  Data that passes the same tests -/

namespace Cddl

/-- C81.  A schema tells data apart only by the tests written in it.  Data of the same shape that passes the same tests
gets the same result, with the same message. -/
theorem C81_same {T : Probes} {env : Env} {n : Node} {c : Ctx} {v w : Value} (he : env.Made T) (hn : n.Made T)
    (hc : c.Made T) (hv : v.WF) (hw : w.WF) (h : Akin T env.regexMatch v w) : validate env v n c = validate env w n c := by
  unfold validate lim
  simp only
  congr 1
  funext k
  exact (fns_kin he k).val ⟨h, hv, hw⟩ hn hc

/-- C81.  The same for the rules of a table. -/
theorem C81_rules {T : Probes} {l : Libs} {t : RuleTable} {name : String} {rd : RuleDef} {v w : Value}
    (ht : ∀ p ∈ t, p.2.node.Made T) (hr : LastRule t name rd) (hv : v.WF) (hw : w.WF) (h : Akin T l.regexMatch v w) :
    doValidate (l.env t) v rd = doValidate (l.env t) w rd := by
  have he : (l.env t).Made T := by
    intro s d hd
    simp only [Libs.env, RuleTable.lookup] at hd
    cases hf : t.find s with
    | none => rw [hf] at hd; cases hd
    | some d' => rw [hf] at hd; cases hd; exact ht _ (RuleTable.find_mem hf)
  unfold doValidate
  split
  · rfl
  · exact C81_same he (ht _ (RuleTable.find_mem (find_last.mpr hr))) trivial hv hw h

/-- C81.  For whole calls with CBOR data. -/
theorem C81_cbor {T : Probes} {l : Libs} {name cddl : String} {a b : List UInt8} {c d : Cbor} {v w : Value}
    (ht : ∀ t, flattenFromStr l cddl = .ok t → ∀ p ∈ t, p.2.node.Made T) (ha : l.cborDecode a = .ok c)
    (hb : l.cborDecode b = .ok d) (hc : c.toValue = .ok v) (hd : d.toValue = .ok w) (h : Akin T l.regexMatch v w) :
    validateCborBytes l name cddl a = validateCborBytes l name cddl b := by
  unfold validateCborBytes findRule
  rw [ha, hb]
  simp only [hc, hd]
  cases hf : flattenFromStr l cddl with
  | ok t =>
    simp only [Res.bind]
    cases hfind : t.find name with
    | none => rfl
    | some rd =>
      exact C81_rules (ht t hf) (find_last.mp hfind) (Cbor.toValue_WF _ _ hc) (Cbor.toValue_WF _ _ hd) h
  | _ => rfl

/-- C81.  For whole calls with JSON texts. -/
theorem C81_json {T : Probes} {l : Libs} {name cddl a b : String} {c d : Json} {v w : Value}
    (ht : ∀ t, flattenFromStr l cddl = .ok t → ∀ p ∈ t, p.2.node.Made T) (ha : l.jsonDecode a = .ok c)
    (hb : l.jsonDecode b = .ok d) (hc : c.toValue = .ok v) (hd : d.toValue = .ok w) (h : Akin T l.regexMatch v w) :
    validateJsonStr l name cddl a = validateJsonStr l name cddl b := by
  unfold validateJsonStr findRule
  rw [ha, hb]
  simp only [hc, hd]
  cases hf : flattenFromStr l cddl with
  | ok t =>
    simp only [Res.bind]
    cases hfind : t.find name with
    | none => rfl
    | some rd =>
      exact C81_rules (ht t hf) (find_last.mp hfind) (Json.toValue_WF _ _ hc) (Json.toValue_WF _ _ hd) h
  | _ => rfl

/-- C81.  For texts no test is too many: texts get the same results from all nodes made of the tests exactly if they
pass the same tests. -/
theorem C81_texts {T : Probes} {env : Env} (he : env.Made T) {s t : String} (hs : s.utf8ByteSize < 2 ^ 64) :
    (∀ n : Node, n.Made T → validate env (.text s) n top = validate env (.text t) n top) ↔
    Akin T env.regexMatch (.text s) (.text t) := by
  constructor
  · intro h
    refine .text (fun u hu => ?_) (fun p hp => ?_) fun hz => ?_
    · have := h (.literal (.text u)) hu
      have e1 := (C05_literal env top (.text u) (.text s)).1
      have e2 := (C05_literal env top (.text u) (.text t)).1
      unfold Accepts at e1 e2
      rw [this] at e1
      have := e1.symm.trans e2
      simp only [Denotes, Value.text.injEq] at this
      exact ⟨fun e => (this.mp e.symm).symm, fun e => (this.mpr e.symm).symm⟩
    · have := h (.ctlRegexp p) hp
      unfold validate at this
      rw [val_eq, val_eq] at this
      simp only [valBody, validateControlRegexp] at this
      revert this
      cases env.regexMatch p s <;> cases env.regexMatch p t <;> simp
    · have := h (.ctl .size (.prelude .tstr) (.literal (.int s.utf8ByteSize))) hz
      have hn : ∀ n : Node, (∀ s l, n ≠ .rule s l) → Names env top n n := fun n hn => .here top n hn
      have e1 := (C11_size_tstr env top _ _ (.exactly s.utf8ByteSize) (.text s) (hn (.prelude .tstr) (by simp))
        (hn _ (by simp [SizeArg.node])) hs).1
      have e2 := (C11_size_tstr env top _ _ (.exactly s.utf8ByteSize) (.text t) (hn (.prelude .tstr) (by simp))
        (hn _ (by simp [SizeArg.node])) hs).1
      unfold Accepts at e1 e2
      simp only [SizeArg.node] at e1 e2
      rw [this] at e1
      obtain ⟨u, e3, e4⟩ := e2.mp (e1.mpr ⟨s, rfl, by simp [SizeArg.Allows]⟩)
      cases e3
      simpa [SizeArg.Allows] using e4.symm
  · exact fun h n hn => C81_same he hn trivial trivial trivial h

/-- C81.  Nor for the integers that CBOR and JSON have. -/
theorem C81_integers {T : Probes} {env : Env} (he : env.Made T) {i j : Int} (hi : i < 2 ^ 64) (hj : j < 2 ^ 64) :
    (∀ n : Node, n.Made T → validate env (.integer i) n top = validate env (.integer j) n top) ↔
    Akin T env.regexMatch (.integer i) (.integer j) := by
  have hn : ∀ n : Node, (∀ s l, n ≠ .rule s l) → Names env top n n := fun n hn => .here top n hn
  constructor
  · intro h
    have sign : i < 0 ↔ j < 0 := by
      have := h (.prelude .nint) trivial
      have e1 := (C04_prelude env top .nint (.integer i)).1
      have e2 := (C04_prelude env top .nint (.integer j)).1
      unfold Accepts at e1 e2
      rw [this] at e1
      simpa [InPrelude] using e1.symm.trans e2
    refine .integer sign (fun k hk => ⟨?_, ?_⟩) fun hz n => ?_
    · have := h (.literal (.int k)) hk
      have e1 := (C05_literal env top (.int k) (.integer i)).1
      have e2 := (C05_literal env top (.int k) (.integer j)).1
      unfold Accepts at e1 e2
      rw [this] at e1
      have := e1.symm.trans e2
      simp only [Denotes, Value.integer.injEq] at this
      exact ⟨fun e => (this.mp e.symm).symm, fun e => (this.mpr e.symm).symm⟩
    · have := h (.ctl .gt (.prelude .int) (.literal (.int k))) hk
      have e1 := (C09_integer_controls env top .gt (.prelude .int) _ .int k (.integer i) (by simp) (hn _ (by simp))
        (.inr (.inr rfl)) (hn (.literal (.int k)) (by simp))).1
      have e2 := (C09_integer_controls env top .gt (.prelude .int) _ .int k (.integer j) (by simp) (hn _ (by simp))
        (.inr (.inr rfl)) (hn (.literal (.int k)) (by simp))).1
      unfold Accepts at e1 e2
      rw [this] at e1
      simpa [InIntType, Compares] using e1.symm.trans e2
    · by_cases h0 : i < 0
      · have := sign.mp h0
        have : (0 : Int) < 256 ^ n := Int.pow_pos (by decide)
        constructor <;> intro <;> omega
      · have h0' : ¬ j < 0 := mt sign.mpr h0
        obtain ⟨x, rfl⟩ := Int.eq_ofNat_of_zero_le (Int.not_lt.mp h0)
        obtain ⟨y, rfl⟩ := Int.eq_ofNat_of_zero_le (Int.not_lt.mp h0')
        have hx : x < 2 ^ 64 := by exact_mod_cast hi
        have hy : y < 2 ^ 64 := by exact_mod_cast hj
        have e : ((256 ^ n : Nat) : Int) = (256 : Int) ^ n := by simp
        rw [← e, Int.ofNat_lt, Int.ofNat_lt]
        by_cases h8 : 8 ≤ n
        · have h1 : 256 ^ 8 ≤ 256 ^ n := Nat.pow_le_pow_right (by omega) h8
          have h2 : 2 ^ 64 = 256 ^ 8 := by decide
          exact ⟨fun _ => by omega, fun _ => by omega⟩
        · have := h (.ctl .size (.prelude .uint) (.literal (.int n))) hz
          have big : ∀ z : Nat, z < 2 ^ 64 → ∀ x : Nat, Value.integer z = .integer x → x < 2 ^ 127 := by
            intro z hz x hx
            cases hx
            omega
          have e1 := (C10_size_uint env top _ _ n (.integer x) (hn (.prelude .uint) (by simp))
            (hn (.literal (.int n)) (by simp)) (by omega) (big x hx)).1
          have e2 := (C10_size_uint env top _ _ n (.integer y) (hn (.prelude .uint) (by simp))
            (hn (.literal (.int n)) (by simp)) (by omega) (big y hy)).1
          unfold Accepts at e1 e2
          rw [this] at e1
          have e3 := e1.symm.trans e2
          constructor
          · intro hlt
            obtain ⟨z, e4, e5⟩ := e3.mp ⟨x, rfl, hlt⟩
            cases e4
            exact e5
          · intro hlt
            obtain ⟨z, e4, e5⟩ := e3.mpr ⟨y, rfl, hlt⟩
            cases e4
            exact e5
  · exact fun h n hn => C81_same he hn trivial trivial trivial h

/-- C81.  Nor for byte strings, if `.cbor` is not among the tests. -/
theorem C81_bytes {T : Probes} {env : Env} (he : env.Made T) (hc : ¬ T.cbor) {b d : List UInt8} (hb : b.length < 2 ^ 64) :
    (∀ n : Node, n.Made T → validate env (.bytes b) n top = validate env (.bytes d) n top) ↔
    Akin T env.regexMatch (.bytes b) (.bytes d) := by
  constructor
  · intro h
    refine .bytes (fun u hu => ?_) (fun hz => ?_) fun h => absurd h hc
    · have := h (.literal (.bytes u)) hu
      have e1 := (C05_literal env top (.bytes u) (.bytes b)).1
      have e2 := (C05_literal env top (.bytes u) (.bytes d)).1
      unfold Accepts at e1 e2
      rw [this] at e1
      have := e1.symm.trans e2
      simp only [Denotes, Value.bytes.injEq] at this
      exact ⟨fun e => (this.mp e.symm).symm, fun e => (this.mpr e.symm).symm⟩
    · have := h (.ctl .size (.prelude .bstr) (.literal (.int b.length))) hz
      have hn : ∀ n : Node, (∀ s l, n ≠ .rule s l) → Names env top n n := fun n hn => .here top n hn
      have e1 := (C11_size_bstr env top _ _ (.exactly b.length) (.bytes b) (hn (.prelude .bstr) (by simp))
        (hn _ (by simp [SizeArg.node])) hb).1
      have e2 := (C11_size_bstr env top _ _ (.exactly b.length) (.bytes d) (hn (.prelude .bstr) (by simp))
        (hn _ (by simp [SizeArg.node])) hb).1
      unfold Accepts at e1 e2
      simp only [SizeArg.node] at e1 e2
      rw [this] at e1
      obtain ⟨u, e3, e4⟩ := e2.mp (e1.mpr ⟨b, rfl, by simp [SizeArg.Allows]⟩)
      cases e3
      simpa [SizeArg.Allows] using e4.symm
  · exact fun h n hn => C81_same he hn trivial trivial trivial h

/-- The tests of the schema in the example. -/
def personProbes : Probes where
  lit l := l ∈ [.text "name", .text "age", .int 0, .int 120]
  pattern _ := False
  size := False
  cbor := False

/-- C81, an example: all persons with an age between 1 and 119 and some name are alike. -/
theorem C81_example : ∃ t rd, flattenFromStr demoLibs "person = {name: tstr, age: 0..120}" = .ok t ∧ LastRule t "person" rd ∧
    ∀ (i j : Int) (s u : String), 0 < i → i < 120 → 0 < j → j < 120 → s ∉ ["name", "age"] → u ∉ ["name", "age"] →
      doValidate (demoLibs.env t) (.map [(.text "age", .integer i), (.text "name", .text s)]) rd =
      doValidate (demoLibs.env t) (.map [(.text "age", .integer j), (.text "name", .text u)]) rd := by
  let t : RuleTable := [("person", ⟨[], .map [.keyValue (.literal (.text "name")) (.prelude .tstr) true,
    .keyValue (.literal (.text "age")) (.range (.literal (.int 0)) (.literal (.int 120)) true) true]⟩)]
  have hr : LastRule t "person" t[0].2 := find_last.mp rfl
  refine ⟨t, t[0].2, flattenFromStr_same (by decide +kernel), hr, ?_⟩
  intro i j s u hi hi' hj hj' hs hu
  have wf : ∀ v w : Value, v.WF → w.WF → (Value.map [(.text "age", v), (.text "name", w)]).WF := fun v w hv hw =>
    ⟨(VMap.sorted_iff _).mpr (.cons (by simp; decide) (.cons (by simp) .nil)), by simp [Value.WFMap, Value.WF, hv, hw]⟩
  refine C81_rules (T := personProbes) ?_ hr (wf _ _ trivial trivial) (wf _ _ trivial trivial)
    (.map (.cons (.same _) (.cons (.same _) .nil)) (.cons (.integer ?_ ?_ (fun h => h.elim)) (.cons (.text ?_ (fun _ h => h.elim)
      (fun h => h.elim)) .nil)))
  · simp [t, Node.Made, Node.MadeL, personProbes]
  · constructor <;> intro <;> omega
  · intro k hk
    simp [personProbes] at hk
    rcases hk with rfl | rfl <;> omega
  · intro k hk
    simp [personProbes] at hk hs hu
    rcases hk with rfl | rfl
    · exact ⟨fun e => absurd e.symm hs.1, fun e => absurd e.symm hu.1⟩
    · exact ⟨fun e => absurd e.symm hs.2, fun e => absurd e.symm hu.2⟩

/-- C81, the tests count: without `.size` among the tests these texts would pass for alike, `.size` tells them apart. -/
theorem C81_size_example :
    Akin ⟨fun _ => False, fun _ => False, False, False⟩ (demoEnv []).regexMatch (.text "abc") (.text "abcd") ∧
    ¬ Akin ⟨fun _ => False, fun _ => False, True, False⟩ (demoEnv []).regexMatch (.text "abc") (.text "abcd") ∧
    Accepts (demoEnv []) top (.ctl .size (.prelude .tstr) (.literal (.int 3))) (.text "abc") ∧
    ¬ Accepts (demoEnv []) top (.ctl .size (.prelude .tstr) (.literal (.int 3))) (.text "abcd") := by
  refine ⟨.text (fun _ h => h.elim) (fun _ h => h.elim) fun h => h.elim, fun h => ?_, accepts_of_fuel 20 (by decide), ?_⟩
  · generalize e1 : ("abc" : String) = s at h
    generalize e2 : ("abcd" : String) = u at h
    cases h with
    | same => exact absurd (e1.trans e2.symm) (by decide)
    | text _ _ h => subst e1 e2; exact absurd (h trivial) (by decide)
  · intro h
    have : validate (demoEnv []) (.text "abcd") (.ctl .size (.prelude .tstr) (.literal (.int 3))) top =
        .err (.mismatch "tstr over .size limit") := validate_of_fuel 20 (by decide)
    rw [Accepts, this] at h
    cases h

end Cddl
