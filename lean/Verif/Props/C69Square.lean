import Verif.Props.C69

/-! # C69  The square is reached

Every search for a key starts from the first entry that is left.  A map whose keys are integers, with the members for the
numbers from 0 written before those for the negative ones, is therefore walked through from the beginning for each of the
former. -/

namespace Cddl

/-- The numbers from 0 are asked for first. -/
def signText : String := "m = {* uint => int, * nint => int}"

/-- The members. -/
def signMembers : List Node :=
  [.occur .zeroOrMore (.keyValue (.prelude .uint) (.prelude .int) false),
    .occur .zeroOrMore (.keyValue (.prelude .nint) (.prelude .int) false)]

/-- The rules. -/
def signTable : RuleTable := [("m", ⟨[], .map signMembers⟩)]

/-- `n` entries: the keys are the integers from `a` on, the values are 0. -/
def run : Int → Nat → VMap
  | _, 0 => []
  | a, n + 1 => (.integer a, .integer 0) :: run (a + 1) n

theorem run_mem {p : Value × Value} : ∀ {n : Nat} {a : Int}, p ∈ run a n →
    ∃ i : Int, a ≤ i ∧ i < a + n ∧ p = (.integer i, .integer 0)
  | 0, _, h => (nomatch h)
  | n + 1, a, h => by
    rcases List.mem_cons.mp h with rfl | h
    · exact ⟨a, by omega, by omega, rfl⟩
    · obtain ⟨i, h1, h2, h3⟩ := run_mem h
      exact ⟨i, by omega, by omega, h3⟩

theorem run_length : ∀ (n : Nat) (a : Int), (run a n).length = n
  | 0, _ => rfl
  | n + 1, a => by simp [run, run_length n]

theorem run_append : ∀ (n m : Nat) (a : Int), run a (n + m) = run a n ++ run (a + n) m
  | 0, m, a => by simp [run]
  | n + 1, m, a => by
    rw [show n + 1 + m = (n + m) + 1 by omega]
    simp only [run, run_append n m, List.cons_append]
    rw [show a + 1 + (n : Int) = a + ((n + 1 : Nat) : Int) by omega]

theorem run_pw : ∀ (n : Nat) (a : Int), VMap.PW (run a n)
  | 0, _ => List.Pairwise.nil
  | n + 1, a => by
    refine List.pairwise_cons.mpr ⟨fun p hp => ?_, run_pw n (a + 1)⟩
    obtain ⟨i, h1, _, rfl⟩ := run_mem hp
    show compare a i = .lt
    rw [Int.compare_eq_lt]
    omega

theorem run_wf : ∀ (n : Nat) (a : Int), Value.WFMap (run a n)
  | 0, _ => trivial
  | n + 1, a => ⟨trivial, trivial, run_wf n (a + 1)⟩

theorem run_sizes : ∀ (n : Nat) (a : Int), Value.pairSizes (run a n) = 2 * n
  | 0, _ => rfl
  | n + 1, a => by
    simp only [run, Value.pairSizes, Value.size, run_sizes n]
    omega

/-- The data: the integers from `-n` to `n - 1` as keys. -/
def bothSigns (n : Nat) : Value := .map (run (-(n : Int)) (n + n))

theorem fns_map (env : Env) (k : Nat) (n : Node) (w : WMap) (c : Ctx) :
    (fns env (k + 1)).map n w c = mapBody env (fns env k) n w c := rfl

section
variable {env : Env}

theorem search_skip (f : Value → Res Unit) (g : Value → Nat) (msg : String) (hg : ∀ v, 1 ≤ g v) : ∀ (l : VMap) (r : VMap),
    (∀ p, p ∈ l → ∃ e, f p.1 = .err e) →
    mapSearchLoop f msg (l ++ r) = mapSearchLoop f msg r ∧ l.length + mapSearchLoopN f g r ≤ mapSearchLoopN f g (l ++ r)
  | [], r, _ => ⟨rfl, by simp⟩
  | p :: l, r, h => by
    obtain ⟨e, he⟩ := h p (by simp)
    obtain ⟨h1, h2⟩ := search_skip f g msg hg l r fun q hq => h q (by simp [hq])
    obtain ⟨k, v⟩ := p
    have := hg k
    simp only [List.cons_append, mapSearchLoop, mapSearchLoopN, List.length_cons, he]
    exact ⟨h1, by omega⟩

theorem remove_mid : ∀ (l r : VMap) (k v : Value), (∀ p, p ∈ l → Value.cmp k p.1 = .gt) → Value.cmp k k = .eq →
    VMap.remove (l ++ (k, v) :: r) k = some (v, l ++ r)
  | [], r, k, v, _, h => by simp [VMap.remove, h]
  | p :: l, r, k, v, hl, h => by
    obtain ⟨k', v'⟩ := p
    have h1 := hl (k', v') (by simp)
    have h2 := remove_mid l r k v (fun q hq => hl q (by simp [hq])) h
    simp only [List.cons_append, VMap.remove, h1, h2]

/-- The member for the numbers from 0. -/
theorem uint_member (k : Nat) (c : Ctx) (n m : Nat) (j : Nat) :
    let w : WMap := ⟨run (-(n : Int)) n ++ run (j : Int) m, []⟩
    let node : Node := .keyValue (.prelude .uint) (.prelude .int) false
    (fns env (k + 2)).map node w c = (match m with
      | 0 => .err (.mismatch ("map{" ++ (Node.prelude .uint).display env.fmtF64 ++ "}")) w
      | m + 1 => .ok ⟨run (-(n : Int)) n ++ run ((j + 1 : Nat) : Int) m, []⟩) ∧
    n ≤ (costs env (k + 2)).map node w c := by
  intro w node
  have hs := search_skip (fun key => (fns env (k + 1)).val key (.prelude .uint) c)
    (fun key => (costs env (k + 1)).val key (.prelude .uint) c) ("map{" ++ (Node.prelude .uint).display env.fmtF64 ++ "}")
    (fun v => by show 1 ≤ 1 + _; omega) (run (-(n : Int)) n) (run (j : Int) m) (fun p hp => by
      obtain ⟨i, _, h2, rfl⟩ := run_mem hp
      refine ⟨.mismatch "uint", ?_⟩
      show (if i ≥ 0 then _ else _) = _
      rw [if_neg (by omega)])
  have hc : n ≤ (costs env (k + 2)).map node w c := by
    have h1 := hs.2
    rw [run_length] at h1
    show n ≤ 1 + (mapSearchLoopN _ _ _ + _)
    exact Nat.le_trans (Nat.le_trans (Nat.le_add_right _ _) h1) (Nat.le_trans (Nat.le_add_right _ _) (Nat.le_add_left _ _))
  refine ⟨?_, hc⟩
  cases m with
  | zero =>
    rw [show (fns env (k + 2)).map node w c = _ from fns_map env (k + 1) node w c]
    simp only [node, mapBody, validateMapKeyvalue, validateMapKey, mapSearch]
    rw [show w.map = run (-(n : Int)) n ++ run (j : Int) 0 from rfl, hs.1]
    rfl
  | succ m =>
    have h1 : (fns env (k + 1)).val (.integer (j : Int)) (.prelude .uint) c = .ok () := by
      show (if (j : Int) ≥ 0 then Res.ok () else .err (.mismatch "uint")) = _
      rw [if_pos (by omega)]
    have h2 : (fns env (k + 1)).val (.integer 0) (.prelude .int) c = .ok () := rfl
    rw [show (fns env (k + 2)).map node w c = _ from fns_map env (k + 1) node w c]
    simp only [node, mapBody, validateMapKeyvalue, validateMapKey, mapSearch]
    rw [show w.map = run (-(n : Int)) n ++ run (j : Int) (m + 1) from rfl, hs.1]
    simp only [run, mapSearchLoop, h1, h2, WMap.remove]
    rw [show w.map = run (-(n : Int)) n ++ (.integer (j : Int), .integer 0) :: run ((j : Int) + 1) m from rfl,
      remove_mid]
    · rfl
    · intro p hp
      obtain ⟨i, _, h4, rfl⟩ := run_mem hp
      show compare (j : Int) i = .gt
      rw [Int.compare_eq_gt]
      omega
    · exact Value.cmp_refl _

/-- The member for the negative numbers, when only these are left. -/
theorem nint_member (k : Nat) (c : Ctx) (n : Nat) :
    let w : WMap := ⟨run (-(n : Int)) n, []⟩
    let node : Node := .keyValue (.prelude .nint) (.prelude .int) false
    (fns env (k + 2)).map node w c = (match n with
      | 0 => .err (.mismatch ("map{" ++ (Node.prelude .nint).display env.fmtF64 ++ "}")) w
      | n + 1 => .ok ⟨run (-(n : Int)) n, []⟩) := by
  intro w node
  cases n with
  | zero => rfl
  | succ n =>
    have h1 : (fns env (k + 1)).val (.integer (-((n + 1 : Nat) : Int))) (.prelude .nint) c = .ok () := by
      show (if (-((n + 1 : Nat) : Int)) < 0 then Res.ok () else .err (.mismatch "nint")) = _
      rw [if_pos (by omega)]
    have h2 : (fns env (k + 1)).val (.integer 0) (.prelude .int) c = .ok () := rfl
    have hw : w.map = (.integer (-((n + 1 : Nat) : Int)), .integer 0) :: run (-(n : Int)) n := by
      show run _ (n + 1) = _
      simp only [run]
      rw [show -((n + 1 : Nat) : Int) + 1 = -(n : Int) by omega]
    rw [show (fns env (k + 2)).map node w c = _ from fns_map env (k + 1) node w c]
    simp only [node, mapBody, validateMapKeyvalue, validateMapKey, mapSearch, hw, mapSearchLoop, h1, h2, WMap.remove]
    rw [show VMap.remove ((Value.integer (-((n + 1 : Nat) : Int)), Value.integer 0) :: run (-(n : Int)) n) _ = _ from
      remove_mid [] _ _ _ (fun _ h => (nomatch h)) (Value.cmp_refl _)]
    rfl

theorem uint_loop (k : Nat) (c : Ctx) (n upper : Nat) (msg : String) : ∀ (m j count b : Nat), count + m < upper → m < b →
    let node : Node := .keyValue (.prelude .uint) (.prelude .int) false
    let w : WMap := ⟨run (-(n : Int)) n ++ run (j : Int) m, []⟩
    occurLoopS (fun w => (fns env (k + 2)).map node w c) 0 upper msg b count w = .ok ⟨run (-(n : Int)) n, []⟩ ∧
    n * m ≤ occurLoopSN (fun w => (fns env (k + 2)).map node w c) (fun w => (costs env (k + 2)).map node w c) upper b count w
  | m, j, count, 0, _, h => absurd h (by omega)
  | 0, j, count, b + 1, _, _ => by
    intro node w
    obtain ⟨h1, _⟩ := uint_member (env := env) k c n 0 j
    refine ⟨?_, by omega⟩
    simp only [occurLoopS]
    rw [show (fns env (k + 2)).map node w c = _ from h1]
    simp [Err.isMismatch, run]
  | m + 1, j, count, b + 1, hu, hb => by
    intro node w
    obtain ⟨h1, h2⟩ := uint_member (env := env) k c n (m + 1) j
    obtain ⟨h3, h4⟩ := uint_loop k c n upper msg m (j + 1) (count + 1) b (by omega) (by omega)
    have hlt : ¬ count + 1 ≥ upper := by omega
    simp only [occurLoopS, occurLoopSN]
    rw [show (fns env (k + 2)).map node w c = _ from h1]
    simp only [hlt, if_false]
    refine ⟨h3, ?_⟩
    rw [Nat.mul_succ, Nat.add_comm]
    exact Nat.add_le_add h2 h4

theorem nint_loop (k : Nat) (c : Ctx) (upper : Nat) (msg : String) : ∀ (n count b : Nat), count + n < upper → n < b →
    occurLoopS (fun w => (fns env (k + 2)).map (.keyValue (.prelude .nint) (.prelude .int) false) w c) 0 upper msg b count
      ⟨run (-(n : Int)) n, []⟩ = .ok ⟨[], []⟩
  | n, count, 0, _, h => absurd h (by omega)
  | 0, count, b + 1, _, _ => by
    simp only [occurLoopS]
    rw [nint_member (env := env) k c 0]
    simp [Err.isMismatch, run]
  | n + 1, count, b + 1, hu, hb => by
    have h3 := nint_loop k c upper msg n (count + 1) b (by omega) (by omega)
    have hlt : ¬ count + 1 ≥ upper := by omega
    simp only [occurLoopS]
    rw [nint_member (env := env) k c (n + 1)]
    simp only [hlt, if_false]
    exact h3

theorem signs_member1 (k : Nat) (c : Ctx) (n : Nat) (hn : n < 2 ^ 64 - 1) :
    let node : Node := .occur .zeroOrMore (.keyValue (.prelude .uint) (.prelude .int) false)
    (fns env (k + 3)).map node ⟨run (-(n : Int)) n ++ run 0 n, []⟩ c = .ok ⟨run (-(n : Int)) n, []⟩ ∧
    n * n ≤ (costs env (k + 3)).map node ⟨run (-(n : Int)) n ++ run 0 n, []⟩ c := by
  intro node
  obtain ⟨h1, h2⟩ := uint_loop (env := env) k c n (2 ^ 64 - 1)
    ("map{" ++ occurDisplay env.fmtF64 .zeroOrMore (.keyValue (.prelude .uint) (.prelude .int) false) ++ "}]")
    n 0 0 (2 ^ 64 - 1 + 1) (by omega) (by omega)
  exact ⟨h1, Nat.le_trans h2 (Nat.le_add_left _ 1)⟩

theorem signs_member2 (k : Nat) (c : Ctx) (n : Nat) (hn : n < 2 ^ 64 - 1) :
    (fns env (k + 3)).map (.occur .zeroOrMore (.keyValue (.prelude .nint) (.prelude .int) false)) ⟨run (-(n : Int)) n, []⟩ c =
      .ok ⟨[], []⟩ :=
  nint_loop (env := env) k c (2 ^ 64 - 1)
    ("map{" ++ occurDisplay env.fmtF64 .zeroOrMore (.keyValue (.prelude .nint) (.prelude .int) false) ++ "}]")
    n 0 (2 ^ 64 - 1 + 1) (by omega) (by omega)

end

/-- C69.  The square is reached: these rules pass the test, the data is of size `4 * n + 1` and accepted, and validation
takes at least `n * n` calls. -/
theorem C69_square (l : Libs) (n : Nat) (hn : n < 2 ^ 64 - 1) :
    signTable.frugal = true ∧ (bothSigns n).WF ∧ (bothSigns n).size = 4 * n + 1 ∧
    doValidate (l.env signTable) (bothSigns n) ⟨[], .map signMembers⟩ = .ok () ∧
    (∃ m, CallsMade (l.env signTable) (bothSigns n) (.map signMembers) top m) ∧
    ∀ m, CallsMade (l.env signTable) (bothSigns n) (.map signMembers) top m → n * n ≤ m := by
  obtain ⟨h1, h2⟩ := signs_member1 (env := l.env signTable) 0 top n hn
  have h3 := signs_member2 (env := l.env signTable) 0 top n hn
  have hr : run (-(n : Int)) (n + n) = run (-(n : Int)) n ++ run 0 n := by
    rw [run_append, show -(n : Int) + n = 0 by omega]
  have hv : (fns (l.env signTable) 4).val (bothSigns n) (.map signMembers) top = .ok () := by
    rw [fns_val]
    simp only [bothSigns, signMembers, valBody, validateMap, seqLoopS, WMap.new, hr, h1, h3, List.isEmpty_nil, if_true]
  have hc : n * n ≤ (costs (l.env signTable) 4).val (bothSigns n) (.map signMembers) top := by
    rw [costs_val]
    simp only [bothSigns, signMembers, valN, mapSeqN, seqLoopSN, WMap.new, hr]
    exact Nat.le_trans h2 (Nat.le_trans (Nat.le_add_right _ _) (Nat.le_add_left _ 1))
  have h4 : CallsMade (l.env signTable) (bothSigns n) (.map signMembers) top
      ((costs (l.env signTable) 4).val (bothSigns n) (.map signMembers) top) := ⟨4, by rw [hv]; exact fun h => (nomatch h), rfl⟩
  refine ⟨by decide +kernel, ⟨(VMap.sorted_iff _).mpr (run_pw _ _), run_wf _ _⟩, ?_, ?_, ⟨_, h4⟩, fun m hm => ?_⟩
  · simp only [bothSigns, Value.size, run_sizes]
    omega
  · rw [doValidate_plain]
    exact accepts_of_fuel 4 hv
  · rw [callsMade_unique hm h4]
    exact hc

/-! ## Examples -/

example : flattenFromStr demoLibs signText = .ok signTable := flattenFromStr_same (by decide +kernel)

/-- `{-2: 0, -1: 0, 0: 0, 1: 0}` -/
example : bothSigns 2 = .map [(.integer (-2), .integer 0), (.integer (-1), .integer 0), (.integer 0, .integer 0),
    (.integer 1, .integer 0)] := rfl

/-- The other way round the numbers are found at once. -/
example : (costs (demoEnv signTable) 4).val (bothSigns 2) (.map signMembers) top = 23 ∧
    (costs (demoEnv signTable) 4).val (bothSigns 2) (.map signMembers.reverse) top = 19 := by decide +kernel

end Cddl
