import Verif.Proofs.Asked
import Verif.Props.C82
import Verif.Props.C44
import Verif.Spec.Stages

/-! # C83  What the libraries are asked -/

namespace Cddl

/-- C83.  Validation asks the libraries only about what is written in the schema and met in the data: whether patterns
of the schema match texts of the data, and, if the schema has `.cbor`, how byte strings of the data decode.  Libraries
that agree on this give the same result, with the same message. -/
theorem C83_asked {T : Probes} {env : Env} {rx : String → String → Bool} {dec : List UInt8 → Except String Cbor} {n : Node}
    {c : Ctx} {v : Value} (he : env.Made T) (hn : n.Made T) (hc : c.Made T)
    (hr : ∀ p s, T.pattern p → Met env.cborDecode T.cbor v (.text s) → rx p s = env.regexMatch p s)
    (hd : T.cbor → ∀ b, Met env.cborDecode T.cbor v (.bytes b) → dec b = env.cborDecode b) :
    validate (env.using rx dec) v n c = validate env v n c := by
  have hW : AskSet T env rx dec (Met env.cborDecode T.cbor v) := ⟨fun _ h _ hx => .elem h hx,
    fun _ h _ hp => ⟨.key h hp, .value h hp⟩, fun ht _ _ _ h h1 h2 => .decoded ht h h1 h2,
    fun p s hp h => (hr p s hp h).symm, fun ht b h => (hd ht b h).symm⟩
  unfold validate lim
  simp only
  congr 1
  funext k
  exact ((fns_ask hW he k).val .self hn hc).symm

/-- The same libraries with other answers about patterns and CBOR. -/
def Libs.using (l : Libs) (rx : String → String → Bool) (dec : List UInt8 → Except String Cbor) : Libs :=
  { l with regexMatch := rx, cborDecode := dec }

/-- C83.  The same for the rules of a table. -/
theorem C83_rules {T : Probes} {l : Libs} {rx : String → String → Bool} {dec : List UInt8 → Except String Cbor} {t : RuleTable}
    {name : String} {rd : RuleDef} {v : Value} (ht : ∀ p ∈ t, p.2.node.Made T) (hr : LastRule t name rd)
    (hx : ∀ p s, T.pattern p → Met l.cborDecode T.cbor v (.text s) → rx p s = l.regexMatch p s)
    (hd : T.cbor → ∀ b, Met l.cborDecode T.cbor v (.bytes b) → dec b = l.cborDecode b) :
    doValidate ((l.using rx dec).env t) v rd = doValidate (l.env t) v rd := by
  have he : (l.env t).Made T := by
    intro s d hd
    simp only [Libs.env, RuleTable.lookup] at hd
    cases hf : t.find s with
    | none => rw [hf] at hd; cases hd
    | some d' => rw [hf] at hd; cases hd; exact ht _ (RuleTable.find_mem hf)
  unfold doValidate
  split
  · rfl
  · exact C83_asked (env := l.env t) he (ht _ (RuleTable.find_mem (find_last.mpr hr))) trivial hx hd

/-- C83.  For whole calls with JSON texts. -/
theorem C83_json {T : Probes} {l : Libs} {rx : String → String → Bool} {dec : List UInt8 → Except String Cbor}
    {name cddl json : String} {j : Json} {v : Value} (ht : ∀ t, flattenFromStr l cddl = .ok t → ∀ p ∈ t, p.2.node.Made T)
    (hj : l.jsonDecode json = .ok j) (hv : j.toValue = .ok v)
    (hx : ∀ p s, T.pattern p → Met l.cborDecode T.cbor v (.text s) → rx p s = l.regexMatch p s)
    (hd : T.cbor → ∀ b, Met l.cborDecode T.cbor v (.bytes b) → dec b = l.cborDecode b) :
    validateJsonStr (l.using rx dec) name cddl json = validateJsonStr l name cddl json := by
  have e : flattenFromStr (l.using rx dec) cddl = flattenFromStr l cddl := rfl
  have e' : (l.using rx dec).jsonDecode json = .ok j := hj
  unfold validateJsonStr findRule
  rw [hj, e', e]
  simp only [hv]
  cases hf : flattenFromStr l cddl with
  | ok t =>
    simp only [Res.bind]
    cases hfind : t.find name with
    | none => rfl
    | some rd => exact C83_rules (ht t hf) (find_last.mp hfind) hx hd
  | _ => rfl

/-- C83.  Without `.regexp` and `.cbor` the libraries do not matter for the result. -/
theorem C83_none {env : Env} {n : Node} {c : Ctx} (v : Value) (rx : String → String → Bool)
    (dec : List UInt8 → Except String Cbor) (he : env.Made ⟨fun _ => True, fun _ => False, True, False⟩)
    (hn : n.Made ⟨fun _ => True, fun _ => False, True, False⟩) (hc : c.Made ⟨fun _ => True, fun _ => False, True, False⟩) :
    validate (env.using rx dec) v n c = validate env v n c :=
  C83_asked he hn hc (fun _ _ h => h.elim) fun h => h.elim

/-- C83.  How floats are printed matters for messages only: the result is the same, with an error of the same sort. -/
theorem C83_print {env : Env} {n : Node} {c : Ctx} {v : Value} (hv : v.WF) (fmt : F64 → String) :
    SameSort (validate env v n c) (validate { env with fmtF64 := fmt } v n c) := by
  have e : { env with fmtF64 := fmt } = env.reprint (fun s => s) fmt := by
    unfold Env.reprint
    congr 1
    funext s
    cases env.lookup s with
    | error e => rfl
    | ok rd => simp only [RuleDef.reword, reword_id]
  rw [e]
  obtain ⟨N, hN⟩ := (lim_ev env).val v n c
  obtain ⟨M, hM⟩ := (lim_ev (env.reprint (fun s => s) fmt)).val v n c
  have := (fns_word (env := env) (fmt := fmt) (f := fun s => s) (ord := True) (fun _ _ h => h) (fun _ _ _ => rewordable_id _) (max N M)).val
    ⟨Reworded.refl (fun _ => rfl) v, hv, hv⟩ (rewordable_id n) (ctx_rewordable_id c)
  have e1 := hN (max N M) (by omega)
  have e2 := hM (max N M) (by omega)
  simp only [reword_id, ctx_reword_id] at e1 e2 this
  rw [e1, e2] at this
  exact this.sort

/-- C83, an instance of printing: a literal float in a message. -/
example : validate (demoEnv []) (.integer 1) (.literal (.float ⟨0⟩)) top = .err (.mismatch "f") ∧
    validate { demoEnv [] with fmtF64 := fun _ => "0.0" } (.integer 1) (.literal (.float ⟨0⟩)) top = .err (.mismatch "0.0") :=
  ⟨validate_of_fuel 20 (by decide +kernel), validate_of_fuel 20 (by decide +kernel)⟩

/-- C83, an instance: the array `["a", "b"]` under `[tstr .regexp "p", tstr]`.  A library that answers differently only about
texts that are not there gives the same result; one that answers differently about `"a"` and `p` does not. -/
theorem C83_example :
    let n : Node := .array [.ctlRegexp "p", .prelude .tstr]
    let v : Value := .array [.text "a", .text "b"]
    let env (rx : String → String → Bool) : Env := (demoEnv []).using rx fun _ => .error "no"
    (∀ rx, rx "p" "a" = true → rx "p" "b" = false → validate (env rx) v n top = .ok ()) ∧
    validate (env fun _ _ => false) v n top = .err (.mismatch "regex mismatch") := by
  refine ⟨fun rx h1 h2 => ?_, validate_of_fuel 20 (by decide +kernel)⟩
  have h0 : validate ((demoEnv []).using (fun p s => p == "p" && s == "a") fun _ => .error "no")
      (.array [.text "a", .text "b"]) (.array [.ctlRegexp "p", .prelude .tstr]) top = .ok () :=
    validate_of_fuel 20 (by decide +kernel)
  rw [← h0]
  refine C83_asked (env := (demoEnv []).using (fun p s => p == "p" && s == "a") fun _ => .error "no")
    (T := ⟨fun _ => True, fun p => p = "p", True, False⟩) (rx := rx) (dec := fun _ => .error "no")
    (fun s rd h => ?_) ⟨rfl, trivial, trivial⟩ trivial ?_ fun h => h.elim
  · cases h
  · have met : ∀ w, Met (fun _ => .error "no") False (.array [.text "a", .text "b"]) w →
        w = .array [.text "a", .text "b"] ∨ w = .text "a" ∨ w = .text "b" := by
      intro w hw
      induction hw with
      | self => exact .inl rfl
      | elem _ hx ih =>
        rcases ih with h | h | h
        · cases h
          simp only [List.mem_cons, List.not_mem_nil, or_false] at hx
          exact .inr hx
        · cases h
        · cases h
      | key _ _ ih => rcases ih with h | h | h <;> cases h
      | value _ _ ih => rcases ih with h | h | h <;> cases h
      | decoded h => exact h.elim
    rintro p s rfl hs
    rcases met _ hs with h | h | h
    · cases h
    · cases h; exact h1
    · cases h; exact h2

end Cddl
