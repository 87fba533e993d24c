import Verif.Proofs.Uses
import Verif.Props.C14

/-! # C45  Deep data under recursive rules -/

namespace Cddl

/-- Nested arrays: values built from arrays only, no deeper than `h` levels below the outermost array. -/
def Nested : Nat → Value → Prop
  | 0, v => v = .array []
  | h + 1, v => ∃ xs, v = .array xs ∧ xs.length < 2 ^ 64 ∧ ∀ x ∈ xs, Nested h x

/-- Nested arrays in which some path goes at least `h` levels below the outermost array. -/
inductive Deep : Nat → Value → Prop
  | zero (xs) : Deep 0 (.array xs)
  | succ {h x xs} : x ∈ xs → Deep h x → Deep (h + 1) (.array xs)

/-- The body of `t = [* t]`. -/
def starBody (t : String) : Node := .array [.occur .zeroOrMore (.rule t [])]

theorem star_lookup {env : Env} {t : String} (ht : env.lookup t = .ok ⟨[], starBody t⟩) {c : Ctx}
    (hp : c.param t = none) :
    c.lookupRule env t [] = if 50 ≤ c.depth then .error (.structural "hit recursion limit")
      else .ok (starBody t, .frame [] c (c.depth + 1)) := by
  rw [lookupRule_global hp]
  by_cases h : 50 ≤ c.depth <;> simp [ht, Except.bind, Ctx.derive, Ctx.incDepth, maxDepth, h]

theorem star_single {env : Env} {t : String} (ht : env.lookup t = .ok ⟨[], starBody t⟩) {c : Ctx}
    (hp : c.param t = none) (hd : c.depth < 50) : Single env c (.rule t []) := by
  have := star_lookup ht hp
  rw [if_neg (by omega)] at this
  exact .rule this (.array _ _)

theorem star_rule {env : Env} {t : String} (ht : env.lookup t = .ok ⟨[], starBody t⟩) {c : Ctx}
    (hp : c.param t = none) (hd : c.depth < 50) (v : Value) :
    validate env v (.rule t []) c = validate env v (starBody t) (.frame [] c (c.depth + 1)) := by
  have := star_lookup ht hp
  rw [if_neg (by omega)] at this
  unfold validate
  rw [val_eq]
  simp only [valBody, validateRule, this, Res.ofExcept, Res.bind]

theorem star_accepts {env : Env} {t : String} (ht : env.lookup t = .ok ⟨[], starBody t⟩) :
    ∀ (h : Nat) (c : Ctx) (v : Value), c.param t = none → c.depth + h < 50 → Nested h v →
      Accepts env c (starBody t) v := by
  intro h
  induction h with
  | zero =>
    intro c v hp hd hn
    cases hn
    exact (C14_homogeneous_partial env c _ _ _ _ (.plain (star_single ht hp (by omega))) (by decide)
      (by decide)).mpr ⟨trivial, by simp⟩
  | succ h ih =>
    intro c v hp hd hn
    obtain ⟨xs, rfl, hlen, hx⟩ := hn
    refine (C14_homogeneous_partial env c _ _ _ _ (.plain (star_single ht hp (by omega))) (by decide) hlen).mpr
      ⟨trivial, fun x hx' => ?_⟩
    show validate _ _ _ _ = _
    rw [star_rule ht hp (by omega)]
    exact ih _ x rfl (by show c.depth + 1 + _ < 50; omega) (hx x hx')

theorem occur_first_fatal {g : WArr → SRes WArr} {f : Value → Res Unit} (hg : TakesOne g f) {up : Nat} {msg : String}
    {e : Err} (he : e.isFatal = true) :
    ∀ (k cnt : Nat) (w : WArr), cnt < up → up + 1 ≤ cnt + k → cnt + w.array.length ≤ up →
      (∀ x ∈ w.array, f x = .ok () ∨ f x = .err e) → (∃ x ∈ w.array, f x = .err e) →
      ∃ w', occurLoopS g 0 up msg k cnt w = .err e w'
  | 0, cnt, w, h1, h2, _, _, _ => by omega
  | k + 1, cnt, w, h1, h2, h3, h4, h5 => by
    obtain ⟨x0, hx0, hx0'⟩ := h5
    cases hw : w.array with
    | nil => rw [hw] at hx0; cases hx0
    | cons x xs =>
      rw [hw] at h3 h4 hx0
      simp only [occurLoopS]
      rw [hg.2 w x xs hw]
      rcases h4 x (by simp) with hx | hx
      · obtain ⟨w', hp, hw'⟩ := popFront_ok hw
        simp only [hx, hp]
        have hm : x0 ∈ xs := by
          rcases List.mem_cons.mp hx0 with h | h
          · rw [h, hx] at hx0'; cases hx0'
          · exact h
        have : ¬ cnt + 1 ≥ up := by
          have := List.length_pos_of_mem hm
          simp only [List.length_cons] at h3; omega
        rw [if_neg this]
        refine occur_first_fatal hg he k (cnt + 1) w' (by omega) (by omega) ?_ ?_ ?_
        · rw [hw']; simp only [List.length_cons] at h3; omega
        · rw [hw']; exact fun y hy => h4 y (by simp [hy])
        · rw [hw']; exact ⟨x0, hm, hx0'⟩
      · simp [hx, isMismatch_fatal he]

/-- The values of nested arrays have a definite verdict. -/
theorem star_verdict {env : Env} {t : String} (ht : env.lookup t = .ok ⟨[], starBody t⟩) :
    ∀ (h : Nat) (c : Ctx) (v : Value), c.param t = none → c.depth ≤ 50 → Nested h v →
      (validate env v (starBody t) c = .ok () ∨
        validate env v (starBody t) c = .err (.structural "hit recursion limit")) ∧
      ∀ k, Deep k v → 50 ≤ c.depth + k →
        validate env v (starBody t) c = .err (.structural "hit recursion limit") := by
  intro h
  induction h with
  | zero =>
    intro c v hp hd hn
    by_cases hlt : c.depth < 50
    · refine ⟨.inl (star_accepts ht 0 c v hp (by omega) hn), fun k hk hck => ?_⟩
      cases hn
      cases hk with
      | zero xs => omega
      | succ hx _ => cases hx
    · have := star_lookup ht hp
      rw [if_pos (by omega)] at this
      cases hn
      have := firstUse_err (env := env) rfl this (.arrayOccur [] .zeroOrMore [])
      exact ⟨.inr this, fun _ _ _ => this⟩
  | succ h ih =>
    intro c v hp hd hn
    by_cases hlt : c.depth < 50
    · obtain ⟨xs, rfl, hlen, hx⟩ := hn
      have el := fun x hx' => ih (.frame [] c (c.depth + 1)) x rfl (by show c.depth + 1 ≤ 50; omega) (hx x hx')
      have hs := star_single ht hp hlt
      have fatal : ∀ x ∈ xs, validate env x (starBody t) (.frame [] c (c.depth + 1)) =
          .err (.structural "hit recursion limit") →
          validate env (.array xs) (starBody t) c = .err (.structural "hit recursion limit") := by
        intro x hx' hxe
        have := occur_first_fatal hs.takesOne (up := usizeMax)
          (msg := "more array element [" ++ occurDisplay env.fmtF64 .zeroOrMore (.rule t []) ++ "]")
          (e := .structural "hit recursion limit") rfl (usizeMax + 1) 0 (WArr.new xs)
          (by decide) (by omega) (by simp only [WArr.new, usizeMax]; omega)
          (fun y hy => by rw [star_rule ht hp hlt]; exact (el y hy).1)
          ⟨x, hx', by rw [star_rule ht hp hlt]; exact hxe⟩
        obtain ⟨w', hw'⟩ := this
        unfold validate starBody
        rw [val_eq]
        simp only [valBody, validateArray, seqLoopS]
        rw [arr_eq]
        simp only [arrBody, validateArrayOccur, OccurLimit.limits]
        rw [hw']
      constructor
      · by_cases hall : ∀ x ∈ xs, validate env x (starBody t) (.frame [] c (c.depth + 1)) = .ok ()
        · left
          refine (C14_homogeneous_partial env c _ _ _ _ (.plain hs) (by decide) hlen).mpr ⟨trivial, fun x hx' => ?_⟩
          show validate _ _ _ _ = _
          rw [star_rule ht hp hlt]
          exact hall x hx'
        · right
          simp only [Classical.not_forall] at hall
          obtain ⟨x, hx', hne⟩ := hall
          rcases (el x hx').1 with h1 | h1
          · exact absurd h1 hne
          · exact fatal x hx' h1
      · intro k hk hck
        cases hk with
        | zero _ => omega
        | succ hx' hk' =>
          exact fatal _ hx' ((el _ hx').2 _ hk' (by show 50 ≤ c.depth + 1 + _; omega))
    · have := star_lookup ht hp
      rw [if_pos (by omega)] at this
      obtain ⟨xs, rfl, _, _⟩ := hn
      have := firstUse_err (env := env) rfl this (.arrayOccur xs .zeroOrMore [])
      exact ⟨.inr this, fun _ _ _ => this⟩

/-- C45.  With `t = [* t]`, arrays nested at most 48 levels below the outermost one are accepted. -/
theorem C45_within (env : Env) (t : String) (v : Value) (ht : env.lookup t = .ok ⟨[], starBody t⟩)
    (hv : Nested 48 v) : validate env v (.rule t []) top = .ok () := by
  rw [star_rule ht rfl (by decide)]
  exact star_accepts ht 48 _ v rfl (by decide) hv

/-- C45.  With `t = [* t]`, nested arrays that reach 49 or more levels below the outermost one are
reported as hitting the recursion limit, not accepted and not a mismatch. -/
theorem C45_beyond (env : Env) (t : String) (v : Value) (ht : env.lookup t = .ok ⟨[], starBody t⟩)
    (h k : Nat) (hn : Nested h v) (hv : Deep k v) (hk : 49 ≤ k) :
    validate env v (.rule t []) top = .err (.structural "hit recursion limit") := by
  rw [star_rule ht rfl (by decide)]
  exact (star_verdict ht h _ v rfl (by decide) hn).2 k hv (by show 50 ≤ 0 + 1 + k; omega)

/-- `[[...[]...]]` with `k` levels below the outermost array. -/
def nest : Nat → Value
  | 0 => .array []
  | k + 1 => .array [nest k]

theorem nest_nested : ∀ k, Nested k (nest k)
  | 0 => rfl
  | k + 1 => ⟨_, rfl, by simp, by simpa using nest_nested k⟩

theorem nest_deep : ∀ k, Deep k (nest k)
  | 0 => .zero _
  | k + 1 => .succ (by simp) (nest_deep k)

/-- Both theorems meet at the limit: 48 levels are accepted, 49 and more reported. -/
example : let env := demoEnv [("t", ⟨[], starBody "t"⟩)]
    validate env (nest 48) (.rule "t" []) top = .ok () ∧
    ∀ k, 49 ≤ k → validate env (nest k) (.rule "t" []) top = .err (.structural "hit recursion limit") :=
  ⟨C45_within _ _ _ rfl (nest_nested 48), fun k hk => C45_beyond _ _ _ rfl k k (nest_nested k) (nest_deep k) hk⟩

end Cddl
