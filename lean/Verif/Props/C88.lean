import Verif.Proofs.AtLeast
import Verif.Proofs.AtMost
import Verif.Proofs.Same
import Verif.Props.C44
import Verif.Spec.Demo
import Verif.Spec.Stages

/-! # C88  Accepted arrays and maps are no larger and no smaller than their entries allow -/

namespace Cddl

/-- C88.  If the entries of an array take at most `k` elements together, no longer array is accepted. -/
theorem C88_array {env : Env} {c : Ctx} {ms : List Node} {k : Nat} (hk : AtMostL env c ms k) {xs : List Value}
    (h : Accepts env c (.array ms) (.array xs)) : xs.length ≤ k := by
  obtain ⟨N, hN⟩ := (lim_ev env).val (.array xs) (.array ms) c
  have e := hN (N + 1) (by omega)
  have h' : (lim env).val (.array xs) (.array ms) c = .ok () := h
  rw [h'] at e
  simp only [fns, step, valBody, validateArray] at e
  have hl := hk.keeps.1 N (WArr.new xs)
  cases hr : seqLoopS (fun m w => (fns env N).arr m w c) ms (WArr.new xs) with
  | ok w =>
    rw [hr] at e hl
    simp only at e
    split at e
    · rename_i hw
      have hl : xs.length ≤ w.array.length + k := hl
      rw [List.isEmpty_iff.mp hw] at hl
      simpa using hl
    · cases e
  | err e' w => rw [hr] at e; cases e
  | panic => rw [hr] at e; cases e
  | fuel => rw [hr] at e; cases e

/-- C88.  If the entries of a map take at most `k` pairs together, no larger map is accepted. -/
theorem C88_map {env : Env} {c : Ctx} {ms : List Node} {k : Nat} (hk : AtMostML env c ms k) {m : VMap}
    (h : Accepts env c (.map ms) (.map m)) : m.length ≤ k := by
  obtain ⟨N, hN⟩ := (lim_ev env).val (.map m) (.map ms) c
  have e := hN (N + 1) (by omega)
  have h' : (lim env).val (.map m) (.map ms) c = .ok () := h
  rw [h'] at e
  simp only [fns, step, valBody, validateMap] at e
  have hl := hk.keeps.1 N (WMap.new m)
  cases hr : seqLoopS (fun m w => (fns env N).map m w c) ms (WMap.new m) with
  | ok w =>
    rw [hr] at e hl
    simp only at e
    split at e
    · rename_i hw
      have hl : m.length ≤ w.map.length + k := hl
      rw [List.isEmpty_iff.mp hw] at hl
      simpa using hl
    · cases e
  | err e' w => rw [hr] at e; cases e
  | panic => rw [hr] at e; cases e
  | fuel => rw [hr] at e; cases e

/-- C88.  If the entries of an array take at least `k` elements together, no shorter array is accepted. -/
theorem C88_array_least {env : Env} {c : Ctx} {ms : List Node} {k : Nat} (hk : AtLeastL env c ms k) {xs : List Value}
    (h : Accepts env c (.array ms) (.array xs)) : k ≤ xs.length := by
  obtain ⟨N, hN⟩ := (lim_ev env).val (.array xs) (.array ms) c
  have e := hN (N + 1) (by omega)
  have h' : (lim env).val (.array xs) (.array ms) c = .ok () := h
  rw [h'] at e
  simp only [fns, step, valBody, validateArray] at e
  have hl := hk.takes N (WArr.new xs)
  cases hr : seqLoopS (fun m w => (fns env N).arr m w c) ms (WArr.new xs) with
  | ok w =>
    rw [hr] at hl
    have hl : w.array.length + k ≤ xs.length := hl
    omega
  | err e' w => rw [hr] at e; cases e
  | panic => rw [hr] at e; cases e
  | fuel => rw [hr] at e; cases e

/-- C88.  If the entries of a map take at least `k` pairs together, no smaller map is accepted. -/
theorem C88_map_least {env : Env} {c : Ctx} {ms : List Node} {k : Nat} (hk : AtLeastML env c ms k) {m : VMap}
    (h : Accepts env c (.map ms) (.map m)) : k ≤ m.length := by
  obtain ⟨N, hN⟩ := (lim_ev env).val (.map m) (.map ms) c
  have e := hN (N + 1) (by omega)
  have h' : (lim env).val (.map m) (.map ms) c = .ok () := h
  rw [h'] at e
  simp only [fns, step, valBody, validateMap] at e
  have hl := hk.takes N (WMap.new m)
  cases hr : seqLoopS (fun m w => (fns env N).map m w c) ms (WMap.new m) with
  | ok w =>
    rw [hr] at hl
    have hl : w.map.length + k ≤ m.length := hl
    omega
  | err e' w => rw [hr] at e; cases e
  | panic => rw [hr] at e; cases e
  | fuel => rw [hr] at e; cases e

/-- C88.  An array of elements, without occurrence marks or groups, is accepted only with one element for each. -/
theorem C88_tuple {env : Env} {c : Ctx} {ms : List Node} (he : ∀ n ∈ ms, n.isElement = true) {xs : List Value}
    (h : Accepts env c (.array ms) (.array xs)) : xs.length = ms.length := by
  have most : ∀ ms : List Node, (∀ n ∈ ms, n.isElement = true) → AtMostL env c ms ms.length := by
    intro ms
    induction ms with
    | nil => intro _; exact .nil _
    | cons n l ih =>
      intro he
      rw [List.length_cons, Nat.add_comm]
      exact .cons (.element _ (he n (.head _))) (ih fun m hm => he m (.tail _ hm))
  have least : ∀ ms : List Node, (∀ n ∈ ms, n.isElement = true) → AtLeastL env c ms ms.length := by
    intro ms
    induction ms with
    | nil => intro _; exact .nil _
    | cons n l ih =>
      intro he
      rw [List.length_cons, Nat.add_comm]
      exact .cons (.element _ (he n (.head _))) (ih fun m hm => he m (.tail _ hm))
  exact Nat.le_antisymm (C88_array (most ms he) h) (C88_array_least (least ms he) h)

/-- C88.  For whole calls with JSON texts: an array that is too long is not accepted. -/
theorem C88_json {l : Libs} {name cddl json : String} {t : RuleTable} {rd : RuleDef} {ms : List Node} {k : Nat}
    (ht : flattenFromStr l cddl = .ok t) (hr : LastRule t name rd) (hn : rd.node = .array ms)
    (hk : AtMostL (l.env t) top ms k) {j : Json} {xs : List Value} (hj : l.jsonDecode json = .ok j)
    (hc : j.toValue = .ok (.array xs)) (hx : k < xs.length) : validateJsonStr l name cddl json ≠ .ok () := by
  intro h
  refine absurd (C88_array hk (xs := xs) ?_) (Nat.not_le_of_lt hx)
  unfold validateJsonStr findRule at h
  rw [ht] at h
  simp only [Res.bind] at h
  rw [find_last.mpr hr, hj] at h
  simp only [hc, Res.ofExcept] at h
  unfold doValidate at h
  split at h
  · cases h
  · rw [hn] at h
    exact h

/-- C88, an instance: what `[2*3 int, ? g]` with `g = (tstr // bool, int)` accepts has at most 6 elements. -/
theorem C88_example {xs : List Value}
    (h : Accepts (demoEnv [("g", ⟨[], .group [.choice [.group [.prelude .tstr], .group [.prelude .bool, .prelude .int]]]⟩)]) top
      (.array [.occur (.numbered 2 3) (.prelude .int), .occur .optional (.rule "g" [])]) (.array xs)) : xs.length ≤ 6 :=
  C88_array (.cons (.occur (.element _ rfl)) (.cons (.occur (.rule rfl (.group (.cons (.choice (.cons (.group (.cons (.element _ rfl) (.nil _)))
    (.cons (.group (.cons (.element _ rfl) (.cons (.element _ rfl) (.nil _)))) (.nil _)))) (.nil _))))) (.nil _))) h

/-- C88, an instance from below: what `[2*3 int, g]` with the same `g` accepts has at least 3 elements. -/
theorem C88_least_example {xs : List Value}
    (h : Accepts (demoEnv [("g", ⟨[], .group [.choice [.group [.prelude .tstr], .group [.prelude .bool, .prelude .int]]]⟩)]) top
      (.array [.occur (.numbered 2 3) (.prelude .int), .rule "g" []]) (.array xs)) : 3 ≤ xs.length :=
  C88_array_least (k := 2 * 1 + (1 + 0 + 0)) (.cons (.occur (o := .numbered 2 3) (.element _ rfl)) (.cons (.rule rfl (.group (.cons (.choice
    (.cons (.group (k := 1) (.cons (.element _ rfl) (.nil _)))
    (.cons (.group (k := 1) (.cons (k' := 0) (.element _ rfl) (.cons (k := 0) (.zero ..) (.nil _)))) (.nil ..)))) (.nil _)))) (.nil _))) h

/-- The instance is not empty, and the bound is reached: `[1, 2, "a"]` is accepted. -/
example : Accepts (demoEnv [("g", ⟨[], .group [.choice [.group [.prelude .tstr], .group [.prelude .bool, .prelude .int]]]⟩)]) top
    (.array [.occur (.numbered 2 3) (.prelude .int), .rule "g" []])
    (.array [.integer 1, .integer 2, .text "a"]) :=
  accepts_of_fuel 60 (by decide)

/-- The instance is not empty: `[1, 2, true, 3]` is accepted. -/
example : Accepts (demoEnv [("g", ⟨[], .group [.choice [.group [.prelude .tstr], .group [.prelude .bool, .prelude .int]]]⟩)]) top
    (.array [.occur (.numbered 2 3) (.prelude .int), .occur .optional (.rule "g" [])])
    (.array [.integer 1, .integer 2, .bool true, .integer 3]) :=
  accepts_of_fuel 60 (by decide)

/-- C88, why options that fail are counted: in `[(int,), (int,), tstr // int, int]` no option has more
than three entries, each for one element, but four elements are accepted: two are lost to the first option, which fails. -/
theorem C88_failed_options :
    flattenFromStr demoLibs "a = [(int,), (int,), tstr // int, int]" = .ok [("a", ⟨[], .array [.choice [
      .group [.group [.prelude .int], .group [.prelude .int], .prelude .tstr], .group [.prelude .int, .prelude .int]]]⟩)] ∧
    Accepts (demoEnv []) top
    (.array [.choice [.group [.group [.prelude .int], .group [.prelude .int], .prelude .tstr],
      .group [.prelude .int, .prelude .int]]])
    (.array [.integer 1, .integer 2, .integer 3, .integer 4]) ∧
    AtMost (demoEnv []) top (.group [.group [.prelude .int], .group [.prelude .int], .prelude .tstr]) 3 ∧
    AtMost (demoEnv []) top (.group [.prelude .int, .prelude .int]) 2 :=
  ⟨flattenFromStr_same (by decide +kernel), accepts_of_fuel 60 (by decide),
    .group (.cons (.group (.cons (.element _ rfl) (.nil _))) (.cons (.group (.cons (.element _ rfl) (.nil _)))
      (.cons (.element _ rfl) (.nil _)))),
    .group (.cons (.element _ rfl) (.cons (.element _ rfl) (.nil _)))⟩

end Cddl
