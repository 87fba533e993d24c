import Verif.Proofs.Term

/-! # How deep the calls nest, whatever the data -/

namespace Cddl

/-- The digits of a number with `k` digits, most significant first, padded with zeros. -/
def digits (B : Nat) : Nat → List Nat → Nat
  | 0, _ => 0
  | _ + 1, [] => 0
  | k + 1, x :: xs => x * B ^ k + digits B k xs

theorem digits_lt {B : Nat} (hB : 0 < B) : ∀ {k : Nat} {l : List Nat}, (∀ x ∈ l, x < B) → digits B k l < B ^ k
  | 0, _, _ => by simp [digits]
  | k + 1, [], _ => by simp only [digits]; exact Nat.pow_pos hB
  | k + 1, x :: xs, h => by
    have h1 := digits_lt hB (k := k) (l := xs) fun y hy => h y (List.mem_cons_of_mem _ hy)
    have h2 : x < B := h x List.mem_cons_self
    have h3 : (x + 1) * B ^ k ≤ B * B ^ k := Nat.mul_le_mul_right _ h2
    simp only [digits]
    rw [Nat.pow_succ, Nat.mul_comm (B ^ k) B]
    rw [Nat.add_mul] at h3
    omega

theorem digits_lex {B : Nat} (hB : 0 < B) : ∀ {k : Nat} {p : List Nat} {x y : Nat} {s t : List Nat},
    p.length < k → x < y → (∀ z ∈ s, z < B) → digits B k (p ++ x :: s) < digits B k (p ++ y :: t)
  | 0, p, _, _, _, _, h, _, _ => absurd h (Nat.not_lt_zero _)
  | k + 1, [], x, y, s, t, _, hxy, hs => by
    have h1 := digits_lt hB (k := k) hs
    have h3 : (x + 1) * B ^ k ≤ y * B ^ k := Nat.mul_le_mul_right _ hxy
    simp only [List.nil_append, digits]
    rw [Nat.add_mul] at h3
    omega
  | k + 1, a :: p, x, y, s, t, h, hxy, hs => by
    have := digits_lex hB (k := k) (p := p) (t := t) (by simpa using h) hxy hs
    simp only [List.cons_append, digits]
    omega

/-- What a lookup finds, and where it goes on. -/
theorem lookupRule_cases {env : Env} {c c' : Ctx} {s : String} {args : List Node} {n : Node}
    (h : c.lookupRule env s args = .ok (n, c')) :
    (∃ g d, c = .frame g c' d ∧ gmapFind g s = some n) ∨
    ∃ rd, env.lookup s = .ok rd ∧ n = rd.node ∧ rd.params.length = args.length ∧ c.depth < maxDepth ∧
      c' = .frame (rd.params.zip args) c (c.depth + 1) := by
  have key : ∀ (hv : ((env.lookup s).bind fun rd => (c.derive rd args).bind fun c =>
      .ok (rd.node, c)) = Except.ok (n, c')), ∃ rd, env.lookup s = .ok rd ∧ n = rd.node ∧
      rd.params.length = args.length ∧ c.depth < maxDepth ∧ c' = .frame (rd.params.zip args) c (c.depth + 1) := by
    intro hv
    cases hl : env.lookup s with
    | error e => simp [hl, Except.bind] at hv
    | ok rd =>
      simp only [hl, Except.bind] at hv
      unfold Ctx.derive Ctx.incDepth at hv
      split at hv
      · simp at hv
      · rename_i hd
        split at hd
        · simp at hd
        · rename_i hlen
          simp only [Except.bind] at hd
          split at hd
          · simp at hd
          · rename_i d hdd
            split at hdd
            · simp at hdd
            · rename_i hlt
              simp only [Except.ok.injEq, Prod.mk.injEq] at hdd hd hv
              obtain ⟨rfl, rfl⟩ := hv
              subst hd; subst hdd
              exact ⟨rd, rfl, rfl, by omega, by omega, rfl⟩
  unfold Ctx.lookupRule at h
  cases c with
  | root d => exact .inr (key h)
  | frame g past d =>
    dsimp only at h
    split at h
    · rename_i m hm
      simp only [Except.ok.injEq, Prod.mk.injEq] at h
      obtain ⟨rfl, rfl⟩ := h
      exact .inl ⟨g, d, rfl, hm⟩
    · exact .inr (key h)

theorem Query.rank_le (q : Query) : q.rank ≤ 2 := by cases q <;> simp [Query.rank]

/-- `F` gives a budget for the nesting of calls: a call returns if those that may follow it return with one less. -/
def Budget (env : Env) (F : Nat → Rec) : Prop :=
  ∀ (n : Nat) (q : Query), (∀ q' : Query, KNext env q.ctx q.sz q.rank q'.ctx q'.sz q'.rank → q'.Returns (F n)) → q.Returns (F (n + 1))

theorem fns_budget (env : Env) : Budget env (fns env) := fun _ q => step_returns env _ q

/-- If a weight drops from call to call, the weight bounds the nesting. -/
theorem returns_of_weight {env : Env} {F : Nat → Rec} (hF : Budget env F) (I : Ctx → Nat → Prop) (W : Ctx → Nat → Nat)
    (hsz : ∀ c a b, a < b → I c b → I c a ∧ W c a < W c b)
    (hrule : ∀ c c' s args n b k, c.lookupRule env s args = .ok (n, c') → 2 + Node.sizes args ≤ b → k ≤ n.size →
      I c b → I c' k ∧ W c' k < W c b) :
    ∀ (n : Nat) (q : Query), I q.ctx q.sz → 3 * W q.ctx q.sz + q.rank < n → q.Returns (F n)
  | 0, _, _, h => absurd h (Nat.not_lt_zero _)
  | n + 1, q, hI, h => by
    refine hF n q fun q' hn => ?_
    have hr := q'.rank_le
    suffices h' : I q'.ctx q'.sz ∧ 3 * W q'.ctx q'.sz + q'.rank < 3 * W q.ctx q.sz + q.rank from
      returns_of_weight hF I W hsz hrule n q' h'.1 (by omega)
    generalize q'.ctx = c', q'.sz = a, q'.rank = r' at *
    generalize q.ctx = c, q.sz = b, q.rank = r at *
    cases hn with
    | size hab =>
      have := hsz _ _ _ hab hI
      exact ⟨this.1, by omega⟩
    | rank hr' => exact ⟨hI, by omega⟩
    | rule hl hb hk =>
      have := hrule _ _ _ _ _ _ _ hl hb hk hI
      exact ⟨this.1, by omega⟩

/-- With generic rules. -/
theorem returns_within_of {env : Env} {F : Nat → Rec} (hF : Budget env F) {S : Nat} (hS : env.Within S) {n : Nat} {q : Query} (hc : q.ctx = .root 0)
    (hq : q.sz ≤ S) (hn : 3 * (S + 1) ^ vlen ≤ n) : q.Returns (F n) := by
  have main := returns_of_weight hF
    (fun c b => CtxOK c ∧ (∀ x ∈ ctxVec c, x ≤ S) ∧ b ≤ S)
    (fun c b => digits (S + 1) vlen (ctxVec c ++ [b])) ?_ ?_ n q ?_ ?_
  · exact main
  · rintro c a b hab ⟨h1, h2, h3⟩
    refine ⟨⟨h1, h2, by omega⟩, digits_lex (by omega) ?_ hab (by simp)⟩
    rw [ctxVec_length h1]
    exact Nat.lt_succ_of_le (ctxOK_depth h1)
  · rintro c c' s args m b k hl hb hk ⟨h1, h2, h3⟩
    have hlen : (ctxVec c).length < vlen := by
      rw [ctxVec_length h1]
      exact Nat.lt_succ_of_le (ctxOK_depth h1)
    rcases lookupRule_cases hl with ⟨g, d, rfl, hg⟩ | ⟨rd, hr, rfl, hp, hd, rfl⟩
    · have hsz := gmapFind_size hg
      have hx : 1 + gsize g ≤ S := h2 _ (by simp [ctxVec])
      refine ⟨⟨h1.1, fun x hx => h2 x (by simp [ctxVec, hx]), by omega⟩, ?_⟩
      simp only [ctxVec, List.append_assoc, List.cons_append, List.nil_append]
      refine digits_lex (by omega) ?_ (by omega) (by simp)
      have := hlen
      simp [ctxVec] at this
      omega
    · have hg := gsize_zip_le rd.params args
      have := hS _ _ hr
      refine ⟨⟨⟨h1, rfl, hd⟩, ?_, by omega⟩, ?_⟩
      · intro x hx
        simp only [ctxVec, List.mem_append, List.mem_singleton] at hx
        rcases hx with hx | rfl
        · exact h2 x hx
        · omega
      · simp only [ctxVec, List.append_assoc, List.cons_append, List.nil_append]
        exact digits_lex (by omega) hlen (by omega) (by simp; omega)
  · exact ⟨by rw [hc]; rfl, by rw [hc]; simp [ctxVec], hq⟩
  · have h1 := digits_lt (B := S + 1) (by omega) (k := vlen) (l := ctxVec q.ctx ++ [q.sz])
      (by rw [hc]; simp [ctxVec]; omega)
    have := q.rank_le
    omega

theorem returns_within {env : Env} {S : Nat} (hS : env.Within S) {n : Nat} {q : Query} (hc : q.ctx = .root 0)
    (hq : q.sz ≤ S) (hn : 3 * (S + 1) ^ vlen ≤ n) : q.Returns (fns env n) :=
  returns_within_of (fns_budget env) hS hc hq hn

/-- Scopes of rules without parameters. -/
def Ctx.Plain : Ctx → Prop
  | .root _ => True
  | .frame g past _ => g = [] ∧ past.Plain

/-- Without generic rules. -/
theorem returns_within_plain_of {env : Env} {F : Nat → Rec} (hF : Budget env F) {S : Nat} (hS : env.Within S)
    (hp : ∀ s rd, env.lookup s = .ok rd → rd.params = []) {n : Nat} {q : Query} (hc : q.ctx = .root 0)
    (hq : q.sz ≤ S) (hn : 3 * (maxDepth + 1) * (S + 1) ≤ n) : q.Returns (F n) := by
  have main := returns_of_weight hF
    (fun c b => c.Plain ∧ c.depth ≤ maxDepth ∧ b ≤ S)
    (fun c b => (maxDepth - c.depth) * (S + 1) + b) ?_ ?_ n q ?_ ?_
  · exact main
  · rintro c a b hab ⟨h1, h2, h3⟩
    exact ⟨⟨h1, h2, by omega⟩, by omega⟩
  · rintro c c' s args m b k hl hb hk ⟨h1, h2, h3⟩
    rcases lookupRule_cases hl with ⟨g, d, rfl, hg⟩ | ⟨rd, hr, rfl, hlen, hd, rfl⟩
    · rw [h1.1] at hg
      simp [gmapFind] at hg
    · have := hS _ _ hr
      refine ⟨⟨⟨by rw [hp _ _ hr]; rfl, h1⟩, hd, by omega⟩, ?_⟩
      show (maxDepth - (c.depth + 1)) * (S + 1) + k < (maxDepth - c.depth) * (S + 1) + b
      have he : maxDepth - c.depth = (maxDepth - (c.depth + 1)) + 1 := by omega
      rw [he, Nat.add_mul]
      omega
  · exact ⟨by rw [hc]; trivial, by rw [hc]; exact Nat.zero_le _, hq⟩
  · have := q.rank_le
    rw [hc]
    simp only [Ctx.depth, Nat.sub_zero]
    rw [Nat.mul_assoc, Nat.add_mul] at hn
    omega

theorem returns_within_plain {env : Env} {S : Nat} (hS : env.Within S)
    (hp : ∀ s rd, env.lookup s = .ok rd → rd.params = []) {n : Nat} {q : Query} (hc : q.ctx = .root 0)
    (hq : q.sz ≤ S) (hn : 3 * (maxDepth + 1) * (S + 1) ≤ n) : q.Returns (fns env n) :=
  returns_within_plain_of (fns_budget env) hS hp hc hq hn

end Cddl
