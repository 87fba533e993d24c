import Verif.Proofs.Uses

/-! # C25  Recursion limit is exact -/

namespace Cddl

/-- `k` rule references, one after the other, lead from one node to another. -/
inductive Chain (look : String → Except Err RuleDef) : Nat → Node → Node → Prop
  | here (n) : Chain look 0 n n
  | ref {k s n b} : look s = .ok ⟨[], n⟩ → Chain look k n b → Chain look (k + 1) (.rule s []) b

theorem Chain.trans {look : String → Except Err RuleDef} {j k : Nat} {a b c : Node}
    (h : Chain look j a b) (h' : Chain look k b c) : Chain look (j + k) a c := by
  induction h with
  | here n => rw [Nat.zero_add]; exact h'
  | ref hs _ ih => rw [Nat.add_right_comm]; exact .ref hs (ih h')

/-- The scope after `k` references to rules without parameters. -/
def Ctx.deeper (c : Ctx) : Nat → Ctx
  | 0 => c
  | k + 1 => Ctx.deeper (.frame [] c (c.depth + 1)) k

theorem chain_validate {env : Env} {k : Nat} {n b : Node} (h : Chain env.lookup k n b) :
    ∀ (c : Ctx) (v : Value), (∀ s, c.param s = none) →
      (c.depth + k ≤ 50 → validate env v n c = validate env v b (c.deeper k)) ∧
      (50 < c.depth + k → c.depth ≤ 50 → validate env v n c = .err (.structural "hit recursion limit")) := by
  induction h with
  | here n => intro c v _; exact ⟨fun _ => rfl, fun h1 h2 => absurd h1 (by omega)⟩
  | ref hs _ ih =>
    rename_i k s n b _
    intro c v hp
    have e := lookupRule_global (env := env) (as := []) (hp s)
    by_cases hd : c.depth ≥ maxDepth
    · have hd' : 50 ≤ c.depth := hd
      refine ⟨fun h1 => absurd h1 (by omega), fun _ _ => firstUse_err rfl ?_ (.rule v)⟩
      rw [e]
      simp [hs, Except.bind, Ctx.derive, Ctx.incDepth, hd]
    · have hd' : ¬ 50 ≤ c.depth := hd
      have hl : c.lookupRule env s [] = .ok (n, .frame [] c (c.depth + 1)) := by
        rw [e]
        simp [hs, Except.bind, Ctx.derive, Ctx.incDepth, hd]
      have hv : validate env v (.rule s []) c = validate env v n (.frame [] c (c.depth + 1)) := by
        unfold validate
        rw [val_eq]
        simp only [valBody, validateRule, hl, Res.ofExcept, Res.bind]
      rw [hv]
      have := ih (.frame [] c (c.depth + 1)) v (fun _ => rfl)
      have hdep : (Ctx.frame [] c (c.depth + 1)).depth = c.depth + 1 := rfl
      rw [hdep] at this
      exact ⟨fun h1 => this.1 (by omega), fun h1 h2 => this.2 (by omega) (by omega)⟩

/-- C25.  A chain of at most 50 references means what its last rule body means. -/
theorem C25_within_limit (env : Env) (k : Nat) (n b : Node) (v : Value) (h : Chain env.lookup k n b)
    (hk : k ≤ 50) : validate env v n top = validate env v b (top.deeper k) :=
  (chain_validate h top v fun _ => rfl).1 (by simpa [Ctx.depth] using hk)

/-- C25.  A chain of more than 50 references is the recursion-limit error for every value. -/
theorem C25_beyond_limit (env : Env) (k : Nat) (n b : Node) (v : Value) (h : Chain env.lookup k n b)
    (hk : 50 < k) : validate env v n top = .err (.structural "hit recursion limit") :=
  (chain_validate h top v fun _ => rfl).2 (by simpa [Ctx.depth] using hk) (by simp [Ctx.depth])

/-- C25.  A name defined, directly or through other names, as itself is the recursion-limit error for
every value. -/
theorem C25_cycle (env : Env) (k : Nat) (n : Node) (v : Value) (h : Chain env.lookup (k + 1) n n) :
    validate env v n top = .err (.structural "hit recursion limit") := by
  have : ∀ j, Chain env.lookup (j * (k + 1)) n n := by
    intro j
    induction j with
    | zero => rw [Nat.zero_mul]; exact .here n
    | succ j ih => rw [Nat.succ_mul]; exact ih.trans h
  refine C25_beyond_limit env _ n n v (this 51) ?_
  have := Nat.mul_le_mul (Nat.le_refl 51) (Nat.le_add_left 1 k)
  omega

/-- A table with rules `r0 = r1`, `r1 = r2`, ... -/
def chainLook (s : String) : Except Err RuleDef := .ok ⟨[], .rule (s ++ "'") []⟩

/-- Chains of every length exist. -/
example (k : Nat) : ∀ s, ∃ b, Chain chainLook k (.rule s []) b := by
  induction k with
  | zero => exact fun s => ⟨_, .here _⟩
  | succ k ih => exact fun s => let ⟨b, h⟩ := ih (s ++ "'"); ⟨b, .ref rfl h⟩

/-- `a = b`, `b = a`. -/
example (v : Value) : validate (demoEnv [("a", ⟨[], .rule "b" []⟩), ("b", ⟨[], .rule "a" []⟩)]) v (.rule "a" []) top
    = .err (.structural "hit recursion limit") :=
  C25_cycle _ 1 _ v (.ref rfl (.ref rfl (.here _)))

/-- `a = b`, `b = int` accepts 5. -/
example : validate (demoEnv [("a", ⟨[], .rule "b" []⟩), ("b", ⟨[], .prelude .int⟩)]) (.integer 5) (.rule "a" []) top
    = .ok () := by
  rw [C25_within_limit _ 2 _ (.prelude .int) _ (.ref rfl (.ref rfl (.here _))) (by decide)]
  exact accepts_of_fuel 60 rfl

end Cddl
