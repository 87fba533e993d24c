import Verif.Proofs.Same
import Verif.Proofs.Twice
import Verif.Props.C44
import Verif.Props.C85
import Verif.Spec.Stages

/-! # C90  A key cannot be asked for twice -/

namespace Cddl

/-- C90.  If the entries of a map need at least `k` keys of a kind together, an accepted map has so many keys of this
kind. -/
theorem C90_keys {env : Env} {q : Value → Bool} {c : Ctx} {ms : List Node} {k : Nat} (hk : KeysAtLeastL env q c ms k)
    {m : VMap} (h : Accepts env c (.map ms) (.map m)) : k ≤ (m.filter fun p => q p.1).length := by
  rw [← List.countP_eq_length_filter]
  obtain ⟨N, hN⟩ := (lim_ev env).val (.map m) (.map ms) c
  have e := hN (N + 1) (by omega)
  have h' : (lim env).val (.map m) (.map ms) c = .ok () := h
  rw [h'] at e
  simp only [fns, step, valBody, validateMap] at e
  have hl := hk.takes N (WMap.new m)
  cases hr : seqLoopS (fun m w => (fns env N).map m w c) ms (WMap.new m) with
  | ok w =>
    rw [hr] at hl
    have hl : keyCount q w.map + k ≤ keyCount q m := hl
    exact Nat.le_trans (Nat.le_add_left _ _) hl
  | err e' w => rw [hr] at e; cases e
  | panic => rw [hr] at e; cases e
  | fuel => rw [hr] at e; cases e

/-- C90.  If the entries of a map need a certain key more than once, nothing is accepted. -/
theorem C90_twice {env : Env} {q : Value → Bool} {a : Value} (hq : ∀ b, q b = true → b = a) {c : Ctx} {ms : List Node} {k : Nat}
    (hk : KeysAtLeastL env q c ms k) (h2 : 2 ≤ k) {v : Value} (hv : v.WF) : ¬ Accepts env c (.map ms) v := by
  intro h
  cases v with
  | map m =>
    have hc := C90_keys hk h
    have hp : (m.filter fun p => q p.1).Pairwise fun x y => Value.cmp x.1 y.1 = .lt := ((VMap.sorted_iff m).mp hv.1).filter _
    cases hf : m.filter fun p => q p.1 with
    | nil => rw [hf] at hc; simp at hc; omega
    | cons x t =>
      cases t with
      | nil => rw [hf] at hc; simp at hc; omega
      | cons y t =>
        have hx : x ∈ m.filter fun p => q p.1 := by rw [hf]; simp
        have hy : y ∈ m.filter fun p => q p.1 := by rw [hf]; simp
        rw [List.mem_filter] at hx hy
        rw [hf] at hp
        have hlt := (List.pairwise_cons.mp hp).1 y (by simp)
        rw [hq _ hx.2, hq _ hy.2] at hlt
        exact Value.cmp_lt_irrefl _ hlt
  | _ =>
    have h : (lim env).val _ (.map ms) c = .ok () := h
    rw [val_eq] at h
    cases h

/-- An entry with the key `l` needs this key. -/
theorem literal_needs_key {env : Env} {c : Ctx} {l : Literal} {t : Node} {x : Bool} :
    KeysAtLeast env (fun b => b.beq l.toValue) c (.keyValue (.literal l) t x) 1 := by
  refine .pair fun a h => ?_
  have h : (lim env).val a (.literal l) c = .ok () := h
  rw [val_eq] at h
  simp only [valBody, validateLiteral] at h
  split at h
  · assumption
  · cases h

theorem beq_only {a : Value} : ∀ b : Value, (fun b : Value => b.beq a) b = true → b = a :=
  fun _ hb => (Value.cmp_eq _ _).mp (by simpa [Value.beq] using hb)

/-- C90.  So a schema with the same key in two entries of a map, whatever types they have, accepts nothing. -/
theorem C90_same_key {env : Env} {c : Ctx} {ms : List Node} {l : Literal} {pre mid post : List Node} {t u : Node} {x y : Bool}
    (e : ms = pre ++ .keyValue (.literal l) t x :: mid ++ .keyValue (.literal l) u y :: post) {v : Value} (hv : v.WF) :
    ¬ Accepts env c (.map ms) v := by
  have skip : ∀ (pre : List Node) {ms : List Node} {k : Nat}, KeysAtLeastL env (fun b => b.beq l.toValue) c ms k →
      KeysAtLeastL env (fun b => b.beq l.toValue) c (pre ++ ms) k := by
    intro pre
    induction pre with
    | nil => intro ms k h; exact h
    | cons n pre ih =>
      intro ms k h
      have := KeysAtLeastL.cons (.zero c n) (ih h)
      rwa [Nat.zero_add] at this
  refine C90_twice (q := fun b => b.beq l.toValue) (k := 2) beq_only ?_ (Nat.le_refl _) hv
  rw [e, List.append_assoc]
  refine skip pre ?_
  have h0 : KeysAtLeastL env (fun b => b.beq l.toValue) c post 0 := by
    have := skip post (.nil c)
    rwa [List.append_nil] at this
  exact .cons (k := 1) (k' := 1) literal_needs_key (skip mid (.cons (k := 1) (k' := 0) literal_needs_key h0))

/-- C90.  For whole calls: no JSON text and no CBOR data is accepted. -/
theorem C90_calls {l : Libs} {name cddl : String} {t : RuleTable} {rd : RuleDef} {ms : List Node} {k : Nat}
    {q : Value → Bool} {a : Value} (ht : flattenFromStr l cddl = .ok t) (hr : LastRule t name rd) (hn : rd.node = .map ms)
    (hq : ∀ b, q b = true → b = a) (hk : KeysAtLeastL (l.env t) q top ms k) (h2 : 2 ≤ k) (json : String) (cbor : List UInt8) :
    validateJsonStr l name cddl json ≠ .ok () ∧ validateCborBytes l name cddl cbor ≠ .ok () := by
  have no : ∀ v : Value, v.WF → doValidate (l.env t) v rd ≠ .ok () := by
    intro v hv h
    unfold doValidate at h
    split at h
    · cases h
    · rw [hn] at h
      exact C90_twice hq hk h2 hv h
  unfold validateJsonStr validateCborBytes findRule
  rw [ht]
  simp only [Res.bind]
  rw [find_last.mpr hr]
  simp only
  constructor
  · cases l.jsonDecode json with
    | error e => simp
    | ok j =>
      simp only
      cases hv : j.toValue with
      | error e => simp [Res.ofExcept]
      | ok v => simpa [Res.ofExcept] using no v (j.toValue_WF v hv)
  · cases l.cborDecode cbor with
    | error e => simp
    | ok j =>
      simp only
      cases hv : j.toValue with
      | error e => simp [Res.ofExcept]
      | ok v => simpa [Res.ofExcept] using no v (j.toValue_WF v hv)

/-- C90, an instance: the key `a` is in the map itself and again in all options of a group that is taken over.  Nothing is
accepted. -/
theorem C90_example (json : String) (cbor : List UInt8) :
    validateJsonStr demoLibs "m" "m = {a: int, * tstr => any, g}  g = (a: tstr // b: int, a: bool)" json ≠ .ok () ∧
    validateCborBytes demoLibs "m" "m = {a: int, * tstr => any, g}  g = (a: tstr // b: int, a: bool)" cbor ≠ .ok () := by
  have h : flattenFromStr demoLibs "m = {a: int, * tstr => any, g}  g = (a: tstr // b: int, a: bool)" = .ok [
      ("m", ⟨[], .map [.keyValue (.literal (.text "a")) (.prelude .int) true,
        .occur .zeroOrMore (.keyValue (.prelude .tstr) (.prelude .any) false), .rule "g" []]⟩),
      ("g", ⟨[], .group [.choice [.group [.keyValue (.literal (.text "a")) (.prelude .tstr) true],
        .group [.keyValue (.literal (.text "b")) (.prelude .int) true, .keyValue (.literal (.text "a")) (.prelude .bool) true]]]⟩)] :=
    flattenFromStr_same (by decide +kernel)
  refine C90_calls h (find_last.mp rfl) rfl (a := .text "a") beq_only (k := 1 + (0 + (1 + 0 + 0))) ?_ (by decide) json cbor
  exact .cons (literal_needs_key (l := .text "a")) (.cons (.zero ..) (.cons (.rule rfl (.group (.cons (.choice
    (.cons (.group (.cons (k := 1) (k' := 0) (literal_needs_key (l := .text "a")) (.nil _)))
    (.cons (.group (.cons (k := 0) (k' := 1) (.zero ..) (.cons (k := 1) (k' := 0) (literal_needs_key (l := .text "a")) (.nil _)))) (.nil ..)))) (.nil _))))
    (.nil _)))

/-- C90, why it must be needed: in `{a: int, ? a: tstr}` the second entry can be left out. -/
theorem C90_optional : Accepts (demoEnv []) top (.map [.keyValue (.literal (.text "a")) (.prelude .int) true,
    .occur .optional (.keyValue (.literal (.text "a")) (.prelude .tstr) true)]) (.map [(.text "a", .integer 1)]) :=
  accepts_of_fuel 60 (by decide)

/-- C90, an instance of counting: what `{2*4 tstr => int, * int => any}` accepts has at least two texts as keys. -/
theorem C90_count_example {m : VMap} (h : Accepts (demoEnv []) top (.map [.occur (.numbered 2 4) (.keyValue (.prelude .tstr) (.prelude .int) false),
    .occur .zeroOrMore (.keyValue (.prelude .int) (.prelude .any) false)]) (.map m)) :
    2 ≤ (m.filter fun p => match p.1 with | .text _ => true | _ => false).length := by
  refine C90_keys (q := fun a => match a with | .text _ => true | _ => false) (k := 2 * 1 + (0 + 0))
    (.cons (.occur (o := .numbered 2 4) (.pair fun a h => ?_)) (.cons (.zero ..) (.nil _))) h
  have h : (lim (demoEnv [])).val a (.prelude .tstr) top = .ok () := h
  rw [val_eq] at h
  cases a with
  | text s => rfl
  | _ => cases h

/-- The instance is not empty. -/
example : Accepts (demoEnv []) top (.map [.occur (.numbered 2 4) (.keyValue (.prelude .tstr) (.prelude .int) false),
    .occur .zeroOrMore (.keyValue (.prelude .int) (.prelude .any) false)])
    (.map [(.integer 1, .null), (.text "a", .integer 1), (.text "b", .integer 2)]) :=
  accepts_of_fuel 60 (by decide)

end Cddl
