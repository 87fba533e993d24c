import Verif.Proofs.Lively
import Verif.Props.C50
import Verif.Props.C69

/-! # C71  With repetitions that take something, the calls are bounded by a power of the breadth of the data

The options of choices are tried one after the other, so calls can multiply with every level of nesting (C69).  How deep
calls nest depends on the rules only, as the code gives up after 50 rules (C50).  So, if repetitions end with the data
(Spec/Lively.lean, a test that reads the rules), the number of calls is at most a power of the largest number of elements or
pairs in one place, and the exponent depends on the rules only.  A repetition that takes nothing goes on for `2 ^ 64 - 1`
calls, already for the empty array. -/

namespace Cddl

theorem RuleTable.lively_env (l : Libs) {t : RuleTable} {known : List String} (h : t.lively known = true) :
    (l.env t).Lively known.contains t.size := by
  have key : ∀ s d, (l.env t).lookup s = .ok d →
      (known.contains s = true → d.node.takes (d.knows known.contains) = true) ∧
        d.node.lively (d.knows known.contains) = true := by
    intro s d hd
    have := List.all_eq_true.mp h _ (RuleTable.lookup_mem hd)
    simp only [Bool.and_eq_true, Bool.or_eq_true, Bool.not_eq_true'] at this
    exact ⟨fun hk => this.1.resolve_left (by rw [hk]; nofun), this.2⟩
  exact ⟨RuleTable.within l t, fun s d hd => (key s d hd).1, fun s d hd => (key s d hd).2⟩

section
variable (l : Libs) {t : RuleTable} {known : List String} (ht : t.lively known = true) {name : String} {rd : RuleDef}
  (hr : LastRule t name rd) {v : Value} {m : Nat} (hm : CallsMade (l.env t) v rd.node top m)
include ht hr hm

theorem calls_within (hp : rd.params = []) {k : Nat} (hk : (fns (l.env t) k).val v rd.node top ≠ .fuel) :
    m ≤ (t.size + v.breadth + 3) ^ k := by
  have hl : (l.env t).lookup name = .ok rd := by
    simp only [Libs.env, RuleTable.lookup, find_last.mpr hr]
  have hE := RuleTable.lively_env l ht
  rw [callsMade_unique hm ⟨k, hk, rfl⟩]
  refine (calls_power hE v.breadth k).val _ _ _ trivial (hE.size _ _ hl) ?_ (Nat.le_refl _)
  have h1 := hE.lively _ _ hl
  have h2 : rd.knows known.contains = Ctx.knows known.contains top := by
    funext s
    simp [RuleDef.knows, hp, Ctx.knows]
  rwa [h2] at h1

/-- C71.  Validation takes at most `(S + b + 3) ^ (3 * (S + 1) ^ 51)` calls, where `S` is the size of the largest rule and `b`
the largest number of elements or pairs in one place. -/
theorem C71_generic (hp : rd.params = []) : m ≤ (t.size + v.breadth + 3) ^ (3 * (t.size + 1) ^ 51) := by
  have hl : (l.env t).lookup name = .ok rd := by
    simp only [Libs.env, RuleTable.lookup, find_last.mpr hr]
  have h : ∀ k, 3 * (t.size + 1) ^ 51 ≤ k → m ≤ (t.size + v.breadth + 3) ^ k := fun k hk =>
    calls_within l ht hr hm hp
      (returns_within (q := .val v rd.node (.root 0)) (RuleTable.within l t) rfl (RuleTable.within l t _ _ hl) hk)
  exact h _ (Nat.le_refl _)

/-- C71.  Without generic rules the exponent is linear in the size of the largest rule. -/
theorem C71_plain (hp : ∀ r ∈ t, r.2.params = []) : m ≤ (t.size + v.breadth + 3) ^ (153 * (t.size + 1)) := by
  have hl : (l.env t).lookup name = .ok rd := by
    simp only [Libs.env, RuleTable.lookup, find_last.mpr hr]
  have h : ∀ k, 153 * (t.size + 1) ≤ k → m ≤ (t.size + v.breadth + 3) ^ k := fun k hk =>
    calls_within l ht hr hm (hp _ (RuleTable.lookup_mem hl))
      (returns_within_plain (q := .val v rd.node (.root 0)) (RuleTable.within l t) (fun s d hd => hp _ (RuleTable.lookup_mem hd))
        rfl (RuleTable.within l t _ _ hl) hk)
  exact h _ (Nat.le_refl _)

end

/-! ## Repetitions that take nothing -/

theorem occur_done {σ : Type} {f : σ → SRes σ} {lo up : Nat} {msg : String} {w : σ} (hf : f w = .ok w) (hl : lo ≤ up) :
    ∀ k c, c < up → up ≤ c + k → occurLoopS f lo up msg k c w = .ok w
  | 0, c, h, h' => by omega
  | k + 1, c, h, h' => by
    simp only [occurLoopS, hf]
    split
    · rw [if_neg (by omega)]
    · exact occur_done hf hl k (c + 1) (by omega) (by omega)

theorem occurSN_idle {σ : Type} {f : σ → SRes σ} {g : σ → Nat} {up : Nat} {w : σ} (hf : f w = .ok w) (hg : 1 ≤ g w) :
    ∀ k c, min (up - c) k ≤ occurLoopSN f g up k c w
  | 0, c => by simp
  | k + 1, c => by
    have ih := occurSN_idle (up := up) hf hg k (c + 1)
    simp only [occurLoopSN, hf]
    split <;> omega

/-- `(? int)` -/
def maybeInt : Node := .group [.occur .optional (.prelude .int)]

/-- The rules of `a = [* (? int)]`. -/
def idleTable : RuleTable := [("a", ⟨[], .array [.occur .zeroOrMore maybeInt]⟩)]

theorem idle_array (l : Libs) {o : OccurLimit} (h1 : o.limits.1 ≤ o.limits.2) (h2 : 0 < o.limits.2) :
    (fns (l.env idleTable) 5).val (.array []) (.array [.occur o maybeInt]) top = .ok () ∧
    o.limits.2 ≤ (costs (l.env idleTable) 5).val (.array []) (.array [.occur o maybeInt]) top := by
  have hf : (fns (l.env idleTable) 3).arr maybeInt ⟨[], []⟩ top = .ok ⟨[], []⟩ := rfl
  have hg : 1 ≤ (costs (l.env idleTable) 3).arr maybeInt ⟨[], []⟩ top := Nat.le_add_right 1 _
  have ha : (fns (l.env idleTable) 4).arr (.occur o maybeInt) ⟨[], []⟩ top = .ok ⟨[], []⟩ := by
    rw [fns_arr]
    exact occur_done (f := fun w => (fns (l.env idleTable) 3).arr maybeInt w top) hf h1 _ 0 h2 (by omega)
  have hb : o.limits.2 ≤ (costs (l.env idleTable) 4).arr (.occur o maybeInt) ⟨[], []⟩ top := by
    rw [costs_arr]
    have := occurSN_idle (f := fun w => (fns (l.env idleTable) 3).arr maybeInt w top)
      (g := fun w => (costs (l.env idleTable) 3).arr maybeInt w top) (up := o.limits.2) hf hg (o.limits.2 + 1) 0
    unfold arrN
    dsimp only
    omega
  constructor
  · rw [fns_val]
    simp only [valBody, validateArray, seqLoopS, WArr.new, ha]
    rfl
  · rw [costs_val]
    simp only [valN, arraySeqN, seqLoopSN, WArr.new]
    omega

/-- C71.  Against `[* (? int)]` the empty array is accepted after at least `2 ^ 64 - 1` calls. -/
theorem C71_idle (l : Libs) : doValidate (l.env idleTable) (.array []) ⟨[], .array [.occur .zeroOrMore maybeInt]⟩ = .ok () ∧
    ∀ m, CallsMade (l.env idleTable) (.array []) (.array [.occur .zeroOrMore maybeInt]) top m → 2 ^ 64 - 1 ≤ m := by
  obtain ⟨h1, h2⟩ := idle_array l (o := .zeroOrMore) (by decide) (by decide)
  refine ⟨?_, fun m hm => ?_⟩
  · rw [doValidate_plain]
    exact accepts_of_fuel 5 h1
  · have h3 : CallsMade (l.env idleTable) (.array []) (.array [.occur .zeroOrMore maybeInt]) top
        ((costs (l.env idleTable) 5).val (.array []) (.array [.occur .zeroOrMore maybeInt]) top) :=
      ⟨5, by rw [h1]; exact fun h => (nomatch h), rfl⟩
    rw [callsMade_unique hm h3]
    exact h2

/-- C71.  So without the test on the rules the bound is false. -/
theorem C71_refuted : ¬ ∀ (l : Libs) (t : RuleTable) (name : String) (rd : RuleDef) (v : Value) (m : Nat), LastRule t name rd →
    (∀ r ∈ t, r.2.params = []) → v.size ≤ 1 → t.size ≤ 5 → CallsMade (l.env t) v rd.node top m → m ≤ 2 ^ 63 := by
  intro h
  obtain ⟨m, hm⟩ := callsMade_exists (demoLibs.env idleTable) (.array []) (.array [.occur .zeroOrMore maybeInt]) (c := top) rfl
  have h1 := (C71_idle demoLibs).2 m hm
  have h2 := h demoLibs idleTable "a" ⟨[], .array [.occur .zeroOrMore maybeInt]⟩ (.array []) m ⟨[], [], rfl, by simp⟩
    (by decide) (by decide) (by decide) hm
  omega

/-! ## Examples -/

/-- The exponential schema of C69 passes the test: with `b` elements in one place at most, the calls are a power of `b + 17`. -/
example : infixTable.lively [] = true ∧ infixTable.size = 14 := by decide +kernel

example {v : Value} {m : Nat} (hm : CallsMade (demoLibs.env infixTable) v exprNode top m) :
    m ≤ (14 + v.breadth + 3) ^ (153 * (14 + 1)) := by
  have h := C71_plain demoLibs (t := infixTable) (known := []) (by decide +kernel) (name := "e") (rd := ⟨[], exprNode⟩)
    ⟨[], [], rfl, by simp⟩ hm (by decide)
  have hs : infixTable.size = 14 := by decide +kernel
  rwa [hs] at h

/-- A generic rule and a named group with a member that must be there, both repeated. -/
def livelyText : String := "a = [* g, * p<int>] p<x> = (x, x) g = (tstr, ? bool)"

/-- The rules. -/
def livelyTable : RuleTable :=
  [("a", ⟨[], .array [.occur .zeroOrMore (.rule "g" []), .occur .zeroOrMore (.rule "p" [.prelude .int])]⟩),
   ("p", ⟨["x"], .group [.rule "x" [], .rule "x" []]⟩),
   ("g", ⟨[], .group [.prelude .tstr, .occur .optional (.prelude .bool)]⟩)]

example : flattenFromStr demoLibs livelyText = .ok livelyTable := flattenFromStr_same (by decide +kernel)

/-- It passes, and `[* (? int)]` does not, whatever names are said to take something. -/
example : livelyTable.lively ["g", "p"] = true ∧ livelyTable.lively [] = false ∧ ∀ known, idleTable.lively known = false := by
  refine ⟨by decide +kernel, by decide +kernel, fun known => ?_⟩
  simp [idleTable, maybeInt, RuleTable.lively, Node.lively, Node.livelyL, Node.takes, Node.takesOne, OccurLimit.limits, usizeMax]

/-- `["a", true, "b", 1, 2]` takes 34 calls. -/
example : (fns (demoEnv livelyTable) 30).val (.array [.text "a", .bool true, .text "b", .integer 1, .integer 2]) (.rule "a" []) top
    = .ok () ∧
    (costs (demoEnv livelyTable) 30).val (.array [.text "a", .bool true, .text "b", .integer 1, .integer 2]) (.rule "a" []) top
    = 34 := by decide +kernel

end Cddl
