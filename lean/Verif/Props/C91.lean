import Verif.Proofs.Kinds
import Verif.Props.C90

/-! # C91  Elements and keys of a kind can be counted in the schema -/

namespace Cddl

/-- C91.  If the entries of an array need at least `k` elements of a kind together, an accepted array has so many. -/
theorem C91_array_least {env : Env} {q : Value → Bool} {c : Ctx} {ms : List Node} {k : Nat} (hk : ElemsAtLeastL env q c ms k)
    {xs : List Value} (h : Accepts env c (.array ms) (.array xs)) : k ≤ (xs.filter q).length := by
  rw [← List.countP_eq_length_filter]
  obtain ⟨N, hN⟩ := (lim_ev env).val (.array xs) (.array ms) c
  have e := hN (N + 1) (by omega)
  have h' : (lim env).val (.array xs) (.array ms) c = .ok () := h
  rw [h'] at e
  simp only [fns, step, valBody, validateArray] at e
  have hl := hk.takes N (WArr.new xs)
  cases hr : seqLoopS (fun m w => (fns env N).arr m w c) ms (WArr.new xs) with
  | ok w =>
    rw [hr] at hl
    have hl : elemCount q w.array + k ≤ elemCount q xs := hl
    exact Nat.le_trans (Nat.le_add_left _ _) hl
  | err e' w => rw [hr] at e; cases e
  | panic => rw [hr] at e; cases e
  | fuel => rw [hr] at e; cases e

/-- C91.  If the entries of an array can take at most `k` elements of a kind together, an accepted array has no more. -/
theorem C91_array_most {env : Env} {q : Value → Bool} {c : Ctx} {ms : List Node} {k : Nat} (hk : ElemsAtMostL env q c ms k)
    {xs : List Value} (h : Accepts env c (.array ms) (.array xs)) : (xs.filter q).length ≤ k := by
  rw [← List.countP_eq_length_filter]
  obtain ⟨N, hN⟩ := (lim_ev env).val (.array xs) (.array ms) c
  have e := hN (N + 1) (by omega)
  have h' : (lim env).val (.array xs) (.array ms) c = .ok () := h
  rw [h'] at e
  simp only [fns, step, valBody, validateArray] at e
  have hl := hk.keeps.1 N (WArr.new xs)
  cases hr : seqLoopS (fun m w => (fns env N).arr m w c) ms (WArr.new xs) with
  | ok w =>
    rw [hr] at e hl
    simp only at e
    split at e
    · rename_i hw
      have hl : elemCount q xs ≤ elemCount q w.array + k := hl
      rw [List.isEmpty_iff.mp hw] at hl
      have e0 : elemCount q [] = 0 := rfl
      rw [e0, Nat.zero_add] at hl
      exact hl
    · cases e
  | err e' w => rw [hr] at e; cases e
  | panic => rw [hr] at e; cases e
  | fuel => rw [hr] at e; cases e

/-- C91.  If the entries of a map can take at most `k` keys of a kind together, an accepted map has no more. -/
theorem C91_map_most {env : Env} {q : Value → Bool} {c : Ctx} {ms : List Node} {k : Nat} (hk : KeysAtMostL env q c ms k)
    {m : VMap} (h : Accepts env c (.map ms) (.map m)) : (m.filter fun p => q p.1).length ≤ k := by
  rw [← List.countP_eq_length_filter]
  obtain ⟨N, hN⟩ := (lim_ev env).val (.map m) (.map ms) c
  have e := hN (N + 1) (by omega)
  have h' : (lim env).val (.map m) (.map ms) c = .ok () := h
  rw [h'] at e
  simp only [fns, step, valBody, validateMap] at e
  have hl := hk.keeps.1 N (WMap.new m)
  cases hr : seqLoopS (fun m w => (fns env N).map m w c) ms (WMap.new m) with
  | ok w =>
    rw [hr] at e hl
    simp only at e
    split at e
    · rename_i hw
      have hl : keyCount q m ≤ keyCount q w.map + k := hl
      rw [List.isEmpty_iff.mp hw] at hl
      have e0 : keyCount q [] = 0 := rfl
      rw [e0, Nat.zero_add] at hl
      exact hl
    · cases e
  | err e' w => rw [hr] at e; cases e
  | panic => rw [hr] at e; cases e
  | fuel => rw [hr] at e; cases e

/-- C91.  For maps, both bounds. -/
theorem C91_map_between {env : Env} {q : Value → Bool} {c : Ctx} {ms : List Node} {k k' : Nat} (hl : KeysAtLeastL env q c ms k)
    (hm : KeysAtMostL env q c ms k') {m : VMap} (h : Accepts env c (.map ms) (.map m)) :
    k ≤ (m.filter fun p => q p.1).length ∧ (m.filter fun p => q p.1).length ≤ k' :=
  ⟨C90_keys hl h, C91_map_most hm h⟩

/-- C91.  For whole calls with JSON texts: an array with too few or too many elements of a kind is not accepted. -/
theorem C91_json {l : Libs} {name cddl json : String} {t : RuleTable} {rd : RuleDef} {ms : List Node} {q : Value → Bool} {k k' : Nat}
    (ht : flattenFromStr l cddl = .ok t) (hr : LastRule t name rd) (hn : rd.node = .array ms)
    (hl : ElemsAtLeastL (l.env t) q top ms k) (hm : ElemsAtMostL (l.env t) q top ms k') {j : Json} {xs : List Value}
    (hj : l.jsonDecode json = .ok j) (hc : j.toValue = .ok (.array xs))
    (hx : (xs.filter q).length < k ∨ k' < (xs.filter q).length) : validateJsonStr l name cddl json ≠ .ok () := by
  intro h
  have ha : Accepts (l.env t) top (.array ms) (.array xs) := by
    unfold validateJsonStr findRule at h
    rw [ht] at h
    simp only [Res.bind] at h
    rw [find_last.mpr hr, hj] at h
    simp only [hc, Res.ofExcept] at h
    unfold doValidate at h
    split at h
    · cases h
    · rw [hn] at h
      exact h
  have h1 := C91_array_least hl ha
  have h2 := C91_array_most hm ha
  omega

/-- Texts. -/
def Value.isText : Value → Bool
  | .text _ => true
  | _ => false

theorem tstr_text {env : Env} {c : Ctx} (a : Value) (h : Accepts env c (.prelude .tstr) a) : a.isText = true := by
  have h : (lim env).val a (.prelude .tstr) c = .ok () := h
  rw [val_eq] at h
  cases a with
  | text s => rfl
  | _ => cases h

theorem int_no_text {env : Env} {c : Ctx} (a : Value) (h : Accepts env c (.prelude .int) a) : a.isText = false := by
  have h : (lim env).val a (.prelude .int) c = .ok () := h
  rw [val_eq] at h
  cases a with
  | text s => cases h
  | _ => rfl

/-- C91, an instance: what `[tstr, * int, 1*2 tstr]` accepts has two or three texts, however long it is. -/
theorem C91_example {xs : List Value} (h : Accepts (demoEnv []) top (.array [.prelude .tstr, .occur .zeroOrMore (.prelude .int),
    .occur (.numbered 1 2) (.prelude .tstr)]) (.array xs)) :
    2 ≤ (xs.filter Value.isText).length ∧ (xs.filter Value.isText).length ≤ 3 :=
  ⟨C91_array_least (k := 1 + (0 + (1 * 1 + 0))) (.cons (.alone rfl (by simp) tstr_text) (.cons (.zero ..)
      (.cons (.occur (o := .numbered 1 2) (.alone rfl (by simp) tstr_text)) (.nil _)))) h,
    C91_array_most (k := 1 + (max 1 OccurLimit.zeroOrMore.limits.2 * 0 + (max 1 2 * 1 + 0))) (.cons (.element _ rfl)
      (.cons (.occur (.other rfl (by simp) int_no_text)) (.cons (.occur (o := .numbered 1 2) (.element _ rfl)) (.nil _)))) h⟩

/-- The instance is not empty. -/
example : Accepts (demoEnv []) top (.array [.prelude .tstr, .occur .zeroOrMore (.prelude .int),
    .occur (.numbered 1 2) (.prelude .tstr)]) (.array [.text "a", .integer 1, .integer 2, .integer 3, .text "b"]) :=
  accepts_of_fuel 60 (by decide)

/-- C91, an instance: what `{name: tstr, * int => any}` accepts has exactly one text for a key. -/
theorem C91_map_example {m : VMap} (h : Accepts (demoEnv []) top (.map [.keyValue (.literal (.text "name")) (.prelude .tstr) true,
    .occur .zeroOrMore (.keyValue (.prelude .int) (.prelude .any) false)]) (.map m)) :
    (m.filter fun p => p.1.isText).length = 1 := by
  have lit : ∀ a, Accepts (demoEnv []) top (.literal (.text "name")) a → a.isText = true := by
    intro a h
    have h : (lim (demoEnv [])).val a (.literal (.text "name")) top = .ok () := h
    rw [val_eq] at h
    simp only [valBody, validateLiteral] at h
    split at h
    · rename_i he
      have e : a = (Literal.text "name").toValue := (Value.cmp_eq _ _).mp (by simpa [Value.beq] using he)
      rw [e]
      rfl
    · cases h
  have hb := C91_map_between (q := Value.isText) (k := 1 + (0 + 0)) (k' := 1 + (max 1 OccurLimit.zeroOrMore.limits.2 * 0 + 0))
    (.cons (.pair lit) (.cons (.zero ..) (.nil _)))
    (.cons (.pair ..) (.cons (.occur (.other int_no_text)) (.nil _))) h
  rw [Nat.mul_zero] at hb
  omega

/-- The instance is not empty. -/
example : Accepts (demoEnv []) top (.map [.keyValue (.literal (.text "name")) (.prelude .tstr) true,
    .occur .zeroOrMore (.keyValue (.prelude .int) (.prelude .any) false)])
    (.map [(.integer 1, .null), (.integer 2, .text "x"), (.text "name", .text "a")]) :=
  accepts_of_fuel 60 (by decide)

end Cddl
