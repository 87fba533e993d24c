import Verif.Proofs.Removable
import Verif.Props.C13
import Verif.Props.C51

/-! # C74  Generic rules can be written out

Whether a use of a rule, generic or not, is written as its name with arguments or as the body of the rule with the
arguments in the places of the parameters (RFC 8610, section 3.10) makes no difference to the verdict, except where the
first form ends in an error of the schema or at the recursion limit. -/

namespace Cddl

section
variable {l : Libs} {t t' : RuleTable} {K : String → NameUse → Prop}

/-- C74.  If the rules of `t` are written out in `t'` (Spec/WriteOut.lean; generic rules may be kept, recursive ones
too), every value gets the same verdict from both, unless `t` gives a fatal error. -/
theorem C74_tables (W : WrittenOut (l.env t) (l.env t') K) {name : String} {rd rd' : RuleDef} (hK : K name .plain)
    (hr : LastRule t name rd) (hr' : LastRule t' name rd') (hp : rd.params = []) {v : Value} (hv : v.WF) :
    (∃ e, doValidate (l.env t) v rd = .err e ∧ e.isFatal = true) ∨
      SameVerdict (doValidate (l.env t) v rd) (doValidate (l.env t') v rd') := by
  have h1 : (l.env t).lookup name = .ok rd := by simp [Libs.env, RuleTable.lookup, find_last.mpr hr]
  have h2 : (l.env t').lookup name = .ok rd' := by simp [Libs.env, RuleTable.lookup, find_last.mpr hr']
  rcases W.rules name _ hK with ⟨e, h, _⟩ | ⟨d, d', h3, h4, h5, h6, _⟩
  · rw [h1] at h; cases h
  · rw [h1] at h3
    rw [h2] at h4
    cases h3
    cases h4
    obtain ⟨ps, n⟩ := rd
    obtain ⟨ps', n'⟩ := rd'
    dsimp only at *
    subst hp
    subst h5
    rw [doValidate_plain, doValidate_plain]
    have hs : Stands (l.env t) K top n top n' :=
      .mk (q := []) (ps := []) (F := []) (fun _ => .group []) (fun _ => top) (fun _ _ => rfl) (Nat.le_refl _)
        (fun _ _ => rfl) (fun _ _ h => by cases h) (fun _ _ h => by cases h) (fun _ h => by simp at h) h6
    rcases validate_lax W (c := top) rfl hs hv with h | h
    · exact .inl h
    · exact .inr (sameVerdict_of_er h)

/-- C74.  So for schema texts and JSON data. -/
theorem C74_json (W : WrittenOut (l.env t) (l.env t') K) {cddl cddl' name json : String} {rd rd' : RuleDef} {j : Json}
    {v : Value} (ht : flattenFromStr l cddl = .ok t) (ht' : flattenFromStr l cddl' = .ok t') (hK : K name .plain)
    (hr : LastRule t name rd) (hr' : LastRule t' name rd') (hp : rd.params = []) (hd : l.jsonDecode json = .ok j)
    (hj : JsonIs j v) :
    (∃ e, validateJsonStr l name cddl json = .err e ∧ e.isFatal = true) ∨
      SameVerdict (validateJsonStr l name cddl json) (validateJsonStr l name cddl' json) := by
  rw [validateJsonStr_data ht hr hd hj, validateJsonStr_data ht' hr' hd hj]
  exact C74_tables W hK hr hr' hp hj.wf

/-- C74.  And for CBOR data. -/
theorem C74_cbor (W : WrittenOut (l.env t) (l.env t') K) {cddl cddl' name : String} {cbor : List UInt8} {rd rd' : RuleDef}
    {c : Cbor} {v : Value} (ht : flattenFromStr l cddl = .ok t) (ht' : flattenFromStr l cddl' = .ok t')
    (hK : K name .plain) (hr : LastRule t name rd) (hr' : LastRule t' name rd') (hp : rd.params = [])
    (hd : l.cborDecode cbor = .ok c) (hc : CborIs c v) :
    (∃ e, validateCborBytes l name cddl cbor = .err e ∧ e.isFatal = true) ∨
      SameVerdict (validateCborBytes l name cddl cbor) (validateCborBytes l name cddl' cbor) := by
  rw [validateCborBytes_data ht hr hd hc, validateCborBytes_data ht' hr' hd hc]
  exact C74_tables W hK hr hr' hp hc.wf
end

section
variable {t t' : RuleTable} {C D : List String} {k : Nat}

/-- C74.  Where generic rules can be removed from a schema altogether (Spec/Expand.lean), none is left. -/
theorem C74_no_generics (h : t.expand C D k = some t') : ∀ r ∈ t', r.2.params = [] := by
  unfold RuleTable.expand at h
  split at h
  · generalize List.filter _ t = u at h
    have := optAll_all2 h
    clear h
    induction this with
    | nil => simp
    | cons h1 _ ih =>
      simp only [Option.map_eq_some_iff] at h1
      obtain ⟨n, _, rfl⟩ := h1
      intro r hr
      rcases List.mem_cons.mp hr with rfl | hr
      · rfl
      · exact ih r hr
  · cases h

/-- C74.  And every rule that can be validated against is still there, and gives every value the same verdict, unless it
gave a fatal error. -/
theorem C74_expand (l : Libs) (h : t.expand C D k = some t') {name : String} {rd : RuleDef} (hr : LastRule t name rd)
    (hp : rd.params = []) : ∃ rd', LastRule t' name rd' ∧ rd'.params = [] ∧ ∀ v : Value, v.WF →
      (∃ e, doValidate (l.env t) v rd = .err e ∧ e.isFatal = true) ∨
        SameVerdict (doValidate (l.env t) v rd) (doValidate (l.env t') v rd') := by
  have W := expand_writtenOut l h
  have hf := find_last.mpr hr
  have hK : t.Kept C D name .plain := .inr ⟨rd, hf, hp, trivial⟩
  rcases W.rules name _ hK with ⟨e, h1, _⟩ | ⟨d, d', h3, h4, h5, _, _⟩
  · simp only [Libs.env, RuleTable.lookup, hf] at h1; cases h1
  · simp only [Libs.env, RuleTable.lookup, hf] at h3
    cases h3
    have hf' : t'.find name = some d' := by
      simp only [Libs.env, RuleTable.lookup] at h4
      split at h4
      · rename_i hf'; cases h4; exact hf'
      · cases h4
    exact ⟨d', find_last.mp hf', h5.trans hp, fun v hv => C74_tables W hK hr (find_last.mp hf') hp hv⟩

/-- C74.  A value that one of the schemas accepts is accepted by the other, unless the first gives a fatal error. -/
theorem C74_accepts (l : Libs) (h : t.expand C D k = some t') {name : String} {rd rd' : RuleDef} (hr : LastRule t name rd)
    (hp : rd.params = []) (hr' : LastRule t' name rd') {v : Value} (hv : v.WF) :
    (doValidate (l.env t) v rd = .ok () → doValidate (l.env t') v rd' = .ok ()) ∧
    (doValidate (l.env t') v rd' = .ok () → doValidate (l.env t) v rd = .ok () ∨
      ∃ e, doValidate (l.env t) v rd = .err e ∧ e.isFatal = true) := by
  obtain ⟨rd2, h1, _, h2⟩ := C74_expand l h hr hp
  have e := find_last.mpr h1
  rw [find_last.mpr hr'] at e
  cases e
  rcases h2 v hv with ⟨e, he, hf⟩ | hs
  · exact ⟨fun h => (by rw [h] at he; cases he), fun _ => .inr ⟨e, he, hf⟩⟩
  · exact ⟨hs.ok_iff.mp, fun h => .inl (hs.ok_iff.mpr h)⟩

/-- C74.  Where generic rules are not recursive (each uses only those of a lower rank; and keys and what stands behind `&`
and `~` are as Spec/Removable.lean asks) they can all be removed: there is a schema without generic rules that gives the same
verdicts. -/
theorem C74_nonrecursive {P : String → List String} {rank : String → Nat} (R : t.Ranked C D P rank) :
    ∃ t' : RuleTable, (∀ r ∈ t', r.2.params = []) ∧ ∀ (l : Libs) (name : String) (rd : RuleDef), LastRule t name rd →
      rd.params = [] → ∃ rd', LastRule t' name rd' ∧ rd'.params = [] ∧ ∀ v : Value, v.WF →
        (∃ e, doValidate (l.env t) v rd = .err e ∧ e.isFatal = true) ∨
          SameVerdict (doValidate (l.env t) v rd) (doValidate (l.env t') v rd') := by
  obtain ⟨k, t', h⟩ := expand_some R
  exact ⟨t', C74_no_generics h, fun l name rd hr hp => C74_expand l h hr hp⟩
end

/-- A schema with generic rules: one that is optional, a range, a size, and a map. -/
def genericText : String :=
  "msg = { id: between<0, 9>, body: opt<blob<4>>, ext: dict<tstr, opt<num>> } " ++
  "opt<t> = t / null between<a, b> = a .. b blob<n> = bytes .size n dict<k, v> = { * k => v } num = int"

/-- The same schema, written out. -/
def plainText : String :=
  "msg = { id: 0..9, body: bytes .size 4 / null, ext: { * tstr => num / null } } num = int"

def genericTable : RuleTable :=
  [("msg", ⟨[], .map [
      .keyValue (.literal (.text "id")) (.rule "between" [.literal (.int 0), .literal (.int 9)]) true,
      .keyValue (.literal (.text "body")) (.rule "opt" [.rule "blob" [.literal (.int 4)]]) true,
      .keyValue (.literal (.text "ext")) (.rule "dict" [.prelude .tstr, .rule "opt" [.rule "num" []]]) true]⟩),
   ("opt", ⟨["t"], .choice [.rule "t" [], .prelude .nil]⟩),
   ("between", ⟨["a", "b"], .range (.rule "a" []) (.rule "b" []) true⟩),
   ("blob", ⟨["n"], .ctl .size (.prelude .bstr) (.rule "n" [])⟩),
   ("dict", ⟨["k", "v"], .map [.occur .zeroOrMore (.keyValue (.rule "k" []) (.rule "v" []) false)]⟩),
   ("num", ⟨[], .prelude .int⟩)]

def plainTable : RuleTable :=
  [("msg", ⟨[], .map [
      .keyValue (.literal (.text "id")) (.range (.literal (.int 0)) (.literal (.int 9)) true) true,
      .keyValue (.literal (.text "body")) (.choice [.ctl .size (.prelude .bstr) (.literal (.int 4)), .prelude .nil]) true,
      .keyValue (.literal (.text "ext")) (.map [.occur .zeroOrMore
        (.keyValue (.prelude .tstr) (.choice [.rule "num" [], .prelude .nil]) false)]) true]⟩),
   ("num", ⟨[], .prelude .int⟩)]

theorem genericTable_text : flattenFromStr demoLibs genericText = .ok genericTable := flattenFromStr_same (by decide +kernel)
theorem plainTable_text : flattenFromStr demoLibs plainText = .ok plainTable := flattenFromStr_same (by decide +kernel)

theorem optSame {x : Option RuleTable} {t : RuleTable}
    (h : (match x with | some t' => RuleTable.same t' t | none => false) = true) : x = some t := by
  split at h
  · rw [RuleTable.same_eq h]
  · cases h

/-- The generic rules of the first text are removed; what is left is the second text. -/
theorem genericTable_expand : genericTable.expand [] [] 20 = some plainTable := optSame (by decide +kernel)

/-- They are not recursive; `dict` uses its first parameter as a key. -/
example : genericTable.Ranked [] [] (fun s => if s = "dict" then ["k"] else []) (fun _ => 0) :=
  ⟨by decide +kernel, by decide +kernel, by decide +kernel, by decide +kernel⟩

/-- So the two texts give the same verdicts. -/
example (l : Libs) (v : Value) (hv : v.WF) {rd rd' : RuleDef} (hr : LastRule genericTable "msg" rd)
    (hr' : LastRule plainTable "msg" rd') (hp : rd.params = []) :
    doValidate (l.env genericTable) v rd = .ok () → doValidate (l.env plainTable) v rd' = .ok () :=
  (C74_accepts l genericTable_expand hr hp hr' hv).1

/-- `{id: 7, body: null, ext: {"a": 1, "b": null}}` is accepted, with id 10 it is not; by both. -/
def demoMsg (i : Int) : Value :=
  .map [(.text "id", .integer i), (.text "body", .null), (.text "ext", .map [(.text "a", .integer 1), (.text "b", .null)])]

example : validate (demoEnv genericTable) (demoMsg 7) (.rule "msg" []) top = .ok () ∧
    validate (demoEnv plainTable) (demoMsg 7) (.rule "msg" []) top = .ok () ∧
    (∃ m, validate (demoEnv genericTable) (demoMsg 10) (.rule "msg" []) top = .err (.mismatch m)) ∧
    ∃ m, validate (demoEnv plainTable) (demoMsg 10) (.rule "msg" []) top = .err (.mismatch m) :=
  ⟨validate_of_fuel 60 (by decide +kernel), validate_of_fuel 60 (by decide +kernel),
    ⟨_, validate_of_fuel 60 (r := .err (.mismatch "Rule..Rule")) (by decide +kernel)⟩,
    _, validate_of_fuel 60 (r := .err (.mismatch "0..9")) (by decide +kernel)⟩

/-- `x = num<1, 3>  num<a, b> = uint .size (a .. b)` and `x = uint .size (1 .. 3)`. -/
def sizeTable : RuleTable :=
  [("x", ⟨[], .rule "num" [.literal (.int 1), .literal (.int 3)]⟩),
   ("num", ⟨["a", "b"], .ctl .size (.prelude .uint) (.range (.rule "a" []) (.rule "b" []) true)⟩)]

def sizePlain : RuleTable :=
  [("x", ⟨[], .ctl .size (.prelude .uint) (.range (.literal (.int 1)) (.literal (.int 3)) true)⟩)]

/-- C74.  Without "unless it gives a fatal error" it is false: the limits of a size range must be written as numbers, so
`num<1, 3>` is an error of the schema, while written out it accepts 1000. -/
theorem C74_refuted : ¬ ∀ (l : Libs) (t t' : RuleTable) (C D : List String) (k : Nat), t.expand C D k = some t' →
    ∀ (name : String) (rd rd' : RuleDef), LastRule t name rd → rd.params = [] → LastRule t' name rd' →
    ∀ v : Value, v.WF → SameVerdict (doValidate (l.env t) v rd) (doValidate (l.env t') v rd') := by
  intro h
  have := h demoLibs sizeTable sizePlain [] [] 9 (optSame (by decide +kernel)) "x" _ _
    ⟨[], [_], rfl, by simp⟩ rfl ⟨[], [], rfl, by simp⟩ (.integer 1000) trivial
  rw [doValidate_of_fuel (k := 20) (r := .ok ()) (env := demoLibs.env sizePlain) (by decide +kernel) (by decide)] at this
  have h2 := this.ok_iff.mpr rfl
  rw [doValidate_of_fuel (k := 20) (r := .err (.structural "bad .size range start type (Rule)")) (env := demoLibs.env sizeTable)
    (by decide +kernel) (by decide)] at h2
  cases h2

/-- A recursive generic rule is kept, and another one written out within it:
`x = list<int>  list<t> = opt<[t, list<t>]>  opt<t> = t / null` and `x = list<int>  list<t> = [t, list<t>] / null`. -/
def listTable : RuleTable :=
  [("x", ⟨[], .rule "list" [.prelude .int]⟩),
   ("list", ⟨["t"], .rule "opt" [.array [.rule "t" [], .rule "list" [.rule "t" []]]]⟩),
   ("opt", ⟨["t"], .choice [.rule "t" [], .prelude .nil]⟩)]

def listPlain : RuleTable :=
  [("x", ⟨[], .rule "list" [.prelude .int]⟩),
   ("list", ⟨["t"], .choice [.array [.rule "t" [], .rule "list" [.rule "t" []]], .prelude .nil]⟩)]

theorem list_writtenOut (l : Libs) :
    WrittenOut (l.env listTable) (l.env listPlain) (fun s u => (s = "x" ∨ s = "list") ∧ u = .plain) := by
  refine ⟨rfl, rfl, rfl, fun s u h => .inr ?_⟩
  obtain ⟨rfl | rfl, rfl⟩ := h
  · exact ⟨_, _, rfl, rfl, rfl,
      .name .plain rfl (by simp) ⟨.inr rfl, rfl⟩ (.cons (.prelude _ _ _) (.nil _ _)), trivial⟩
  · refine ⟨_, _, rfl, rfl, rfl, .body (as' := [.array [.rule "t" [], .rule "list" [.rule "t" []]]]) [] rfl rfl rfl (.cons ?_ (.nil _ _)) (by simp) ?_, trivial⟩
    · exact .array (.cons (.param _ rfl) (.cons (.name .plain rfl (by decide) ⟨.inr rfl, rfl⟩
        (.cons (.param _ rfl) (.nil _ _))) (.nil _ _)))
    · exact .choice (.cons (.param _ rfl) (.cons (.prelude _ _ _) (.nil _ _)))

example (l : Libs) {v : Value} (hv : v.WF) :
    (∃ e, doValidate (l.env listTable) v ⟨[], .rule "list" [.prelude .int]⟩ = .err e ∧ e.isFatal = true) ∨
      SameVerdict (doValidate (l.env listTable) v ⟨[], .rule "list" [.prelude .int]⟩)
        (doValidate (l.env listPlain) v ⟨[], .rule "list" [.prelude .int]⟩) :=
  C74_tables (list_writtenOut l) (name := "x") ⟨.inl rfl, rfl⟩ ⟨[], _, rfl, by simp⟩ ⟨[], _, rfl, by simp⟩ rfl hv

/-- `[1, [2, null]]` is such a list. -/
example : validate (demoEnv listTable) (.array [.integer 1, .array [.integer 2, .null]]) (.rule "x" []) top = .ok () ∧
    validate (demoEnv listPlain) (.array [.integer 1, .array [.integer 2, .null]]) (.rule "x" []) top = .ok () :=
  ⟨validate_of_fuel 60 (by decide +kernel), validate_of_fuel 60 (by decide +kernel)⟩

/-- Fifty generic rules that hand on their argument, the last one to a map whose keys are given by the name of a rule. -/
def passRules (n : Nat) : RuleTable :=
  (List.range n).map fun i => (s!"g{i}", ⟨["t"], .rule s!"g{i + 1}" [.rule "t" []]⟩)

def namedKeyMap (value : Node) : Node := .map [.occur .zeroOrMore (.keyValue (.rule "key" []) value false)]

/-- `x = g0<int>  g0<t> = g1<t> … g48<t> = g49<t>  g49<t> = {* key => t}  key = tstr`. -/
def namedKeyTable : RuleTable :=
  ("x", ⟨[], .rule "g0" [.prelude .int]⟩) :: passRules 49 ++
    [("g49", ⟨["t"], namedKeyMap (.rule "t" [])⟩), ("key", ⟨[], .prelude .tstr⟩)]

/-- `x = {* key => int}  key = tstr`. -/
def namedKeyPlain : RuleTable := [("x", ⟨[], namedKeyMap (.prelude .int)⟩), ("key", ⟨[], .prelude .tstr⟩)]

/-- C74.  Why keys must not have names: an error in a key, here the recursion limit, is taken for a key that does not match.
So `{"a": 1}` is rejected by the one schema, without a fatal error, and accepted by the other. -/
theorem C74_key_names :
    (∃ m, doValidate (demoLibs.env namedKeyTable) (.map [(.text "a", .integer 1)]) ⟨[], .rule "g0" [.prelude .int]⟩ =
      .err (.mismatch m)) ∧
    doValidate (demoLibs.env namedKeyPlain) (.map [(.text "a", .integer 1)]) ⟨[], namedKeyMap (.prelude .int)⟩ = .ok () :=
  ⟨⟨"shorter map", doValidate_of_fuel (k := 80) (by decide +kernel) (by decide)⟩, doValidate_of_fuel (k := 20) (by decide +kernel) (by decide)⟩

end Cddl
