import Verif.Spec.Entry
import Verif.Props.C42

/-! # C58  The operator `.regexp` -/

namespace Cddl

/-- C58.  `tstr .regexp p` accepts exactly the texts that the regex library says match `p`. -/
theorem C58_regexp (env : Env) (c : Ctx) (p : String) (v : Value) :
    Accepts env c (.ctlRegexp p) v ↔ ∃ t, v = .text t ∧ env.regexMatch p t = true := by
  unfold Accepts validate
  rw [val_eq]
  simp only [valBody]
  cases v <;> simp [validateControlRegexp]

/-- C58.  Everything else is a mismatch, and the message tells a text that does not match from data that is no text. -/
theorem C58_mismatch (env : Env) (c : Ctx) (p : String) (v : Value) :
    (∀ t, v = .text t → env.regexMatch p t = false →
      validate env v (.ctlRegexp p) c = .err (.mismatch "regex mismatch")) ∧
    ((∀ t, v ≠ .text t) → validate env v (.ctlRegexp p) c = .err (.mismatch "tstr")) := by
  unfold validate
  rw [val_eq]
  simp only [valBody]
  constructor
  · rintro t rfl h; simp [validateControlRegexp, h]
  · intro h; cases v <;> first | rfl | exact absurd rfl (h _)

/-- C58.  When the schema is translated, `t .regexp a` is kept exactly when `t` is the prelude's text type and `a` a text
literal that the regex library can compile; it then stands for that pattern. -/
theorem C58_translated (re : String → Bool) (t a : Ast.Ty2) (n : Node) :
    flattenTy1 re (.control t a "regexp") = .ok n ↔
      ∃ p, flattenTy2 re t = .ok (.prelude .tstr) ∧ flattenTy2 re a = .ok (.literal (.text p)) ∧ re p = true ∧
        n = .ctlRegexp p := by
  simp only [flattenTy1, show knownControl "regexp" = true from rfl, if_true]
  cases ht : flattenTy2 re t with
  | ok t' =>
    cases ha : flattenTy2 re a with
    | ok a' =>
      simp only [Res.bind, controlOf]
      simp only [show ("regexp" = "size") = False by decide, show ("regexp" = "lt") = False by decide,
        show ("regexp" = "le") = False by decide, show ("regexp" = "gt") = False by decide,
        show ("regexp" = "ge") = False by decide, if_false, if_true]
      constructor
      · split
        · split
          · rename_i s
            intro h
            cases hs : re s with
            | true => rw [hs, if_pos rfl] at h; cases h; exact ⟨s, rfl, rfl, hs, rfl⟩
            | false => rw [hs, if_neg (by simp)] at h; cases h
          · intro h; cases h
        · intro h; cases h
      · rintro ⟨p, h1, h2, h3, rfl⟩
        cases h1; cases h2
        simp [h3]
    | _ => simp [Res.bind]
  | _ => simp [Res.bind]

/-- C58.  The three ways in which `.regexp` is refused: another target, another argument, a pattern that does not compile. -/
theorem C58_refused (re : String → Bool) (t a : Ast.Ty2) (t' a' : Node)
    (ht : flattenTy2 re t = .ok t') (ha : flattenTy2 re a = .ok a') :
    (t' ≠ .prelude .tstr → flattenTy1 re (.control t a "regexp") = .err (.structural "bad regexp target type")) ∧
    (t' = .prelude .tstr → (∀ p, a' ≠ .literal (.text p)) →
      flattenTy1 re (.control t a "regexp") = .err (.structural "improper regexp type")) ∧
    (∀ p, t' = .prelude .tstr → a' = .literal (.text p) → re p = false →
      flattenTy1 re (.control t a "regexp") = .err (.structural "malformed regexp")) := by
  simp only [flattenTy1, show knownControl "regexp" = true from rfl, if_true, ht, ha, Res.bind, controlOf]
  simp only [show ("regexp" = "size") = False by decide, show ("regexp" = "lt") = False by decide,
    show ("regexp" = "le") = False by decide, show ("regexp" = "gt") = False by decide,
    show ("regexp" = "ge") = False by decide, if_false, if_true]
  refine ⟨fun h => ?_, fun h h1 => ?_, fun p h h1 h2 => ?_⟩
  · split
    · exact absurd rfl h
    · rfl
  · subst h
    dsimp only
    split
    · exact absurd rfl (h1 _)
    · rfl
  · subst h; subst h1
    simp [h2]

/-- A schema text with the one rule `name = tstr .regexp "p"`. -/
def IsRegexpRule (l : Libs) (name cddl p : String) : Prop :=
  parseCddl l.parse cddl =
    .ok [⟨name, [], .assignType [.control (.typename "tstr" []) (.value (.text p)) "regexp"]⟩]

/-- C58, from the text of the schema and of the data: the pattern is compiled when the schema is read, and the answer for
a JSON string is that of the regex library. -/
theorem C58_text (l : Libs) (name cddl p json s : String) (h : IsRegexpRule l name cddl p)
    (hj : l.jsonDecode json = .ok (.string s)) :
    validateJsonStr l name cddl json =
      if l.regexOk p = true then if l.regexMatch p s = true then .ok () else .err (.mismatch "regex mismatch")
      else .err (.structural "malformed regexp") := by
  have hf : flattenFromStr l cddl = (flattenTy1 l.regexOk (.control (.typename "tstr" []) (.value (.text p)) "regexp")).bind
      fun n => .ok [(name, ⟨[], n⟩)] := by
    unfold flattenFromStr
    rw [h]
    simp only [Res.bind, flatten, collectRes, flattenRule, flattenType, flattenTy1s]
    cases flattenTy1 l.regexOk (.control (.typename "tstr" []) (.value (.text p)) "regexp") <;> rfl
  unfold validateJsonStr findRule
  rw [hf]
  cases hre : l.regexOk p with
  | true =>
    rw [(C58_translated _ _ _ _).mpr ⟨p, rfl, rfl, hre, rfl⟩]
    simp only [Res.bind, RuleTable.find, if_true, hj, Json.toValue, Res.ofExcept, doValidate, ne_eq, not_true_eq_false, if_false]
    cases hm : l.regexMatch p s with
    | true => exact (C58_regexp (l.env _) _ p _).mpr ⟨s, rfl, hm⟩
    | false => exact (C58_mismatch (l.env _) _ p _).1 s rfl hm
  | false =>
    rw [(C58_refused _ _ _ (.prelude .tstr) (.literal (.text p)) rfl rfl).2.2 p rfl rfl hre]
    rfl

/-! ## Examples -/

/-- A regex library that knows the patterns `^A` and `(`. -/
def c58Libs : Libs where
  parse := asciiExt
  regexOk p := p != "("
  regexMatch p t := p == "^A" && t.startsWith "A"
  cborDecode _ := .error "bad"
  jsonDecode s := .ok (.string s)
  fmtF64 _ := "f"

theorem c58_rule : IsRegexpRule c58Libs "x" "x = tstr .regexp \"^A\"" "^A" := by
  unfold IsRegexpRule; set_option maxRecDepth 100000 in rfl

theorem c58_bad : IsRegexpRule c58Libs "x" "x = tstr .regexp \"(\"" "(" := by
  unfold IsRegexpRule; set_option maxRecDepth 100000 in rfl

example : validateJsonStr c58Libs "x" "x = tstr .regexp \"^A\"" "ABC" = .ok () := by
  rw [C58_text _ _ _ _ _ _ c58_rule rfl]; decide +kernel
example : validateJsonStr c58Libs "x" "x = tstr .regexp \"^A\"" "ZA" = .err (.mismatch "regex mismatch") := by
  rw [C58_text _ _ _ _ _ _ c58_rule rfl]; decide +kernel
example : validateJsonStr c58Libs "x" "x = tstr .regexp \"(\"" "ABC" = .err (.structural "malformed regexp") := by
  rw [C58_text _ _ _ _ _ _ c58_bad rfl]; decide +kernel

example : Accepts (c58Libs.env []) top (.ctlRegexp "^A") (.text "ABC") :=
  (C58_regexp _ _ _ _).mpr ⟨_, rfl, by decide +kernel⟩
example : validate (c58Libs.env []) (.integer 1) (.ctlRegexp "^A") top = .err (.mismatch "tstr") :=
  (C58_mismatch _ _ _ _).2 nofun

/-- `text`, `uri` and others are other names of the prelude's text type. -/
example : flattenTy1 (fun _ => true) (.control (.typename "uri" []) (.parens [.simple (.value (.text "a"))]) "regexp") =
    .ok (.ctlRegexp "a") :=
  (C58_translated _ _ _ _).mpr ⟨"a", rfl, rfl, rfl, rfl⟩
/-- A rule that means `tstr` is not the prelude's text type, although the other operators accept such rules. -/
example : flattenTy1 (fun _ => true) (.control (.typename "mytext" []) (.value (.text "a")) "regexp") =
    .err (.structural "bad regexp target type") :=
  (C58_refused _ _ _ (.rule "mytext" []) (.literal (.text "a")) rfl rfl).1 (by simp)
example : flattenTy1 (fun _ => true) (.control (.typename "tstr" []) (.typename "pattern" []) "regexp") =
    .err (.structural "improper regexp type") :=
  (C58_refused _ _ _ (.prelude .tstr) (.rule "pattern" []) rfl rfl).2.1 rfl (by simp)

end Cddl
