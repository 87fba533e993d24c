import Verif.Proofs.Single

/-! # C12  Fixed-length arrays (records) -/

namespace Cddl

theorem record_seq {env : Env} {c : Ctx} {ms ts : List Node} (h : All2 (Entry env c) ms ts) :
    ∀ w : WArr, (∃ w', seqLoopS (fun m w => (lim env).arr m w c) ms w = .ok w' ∧ w'.array = []) ↔
      All2 (fun t x => Accepts env c t x) ts w.array := by
  induction h with
  | nil =>
    intro w
    simp only [seqLoopS, SRes.ok.injEq, exists_eq_left']
    constructor
    · intro h; rw [h]; exact .nil
    · intro h
      cases hw : w.array with
      | nil => rfl
      | cons x xs => rw [hw] at h; cases h
  | cons hm _ ih =>
    rename_i m t ms ts _
    intro w
    have ht := hm.takesOne
    simp only [seqLoopS]
    cases hw : w.array with
    | nil =>
      obtain ⟨e, he⟩ := ht.1 w hw
      dsimp only at he
      simp only [he]
      constructor
      · rintro ⟨w', h1, _⟩; cases h1
      · intro h; cases h
    | cons x xs =>
      have h2 := ht.2 w x xs hw
      dsimp only at h2
      rw [h2]
      cases hv : validate env x t c with
      | ok =>
        obtain ⟨w', h3, h4⟩ := popFront_ok hw
        simp only [h3]
        rw [ih w', h4]
        constructor
        · intro h; exact .cons hv h
        · intro h; cases h; assumption
      | err e =>
        simp only [SRes.ofRes]
        constructor
        · rintro ⟨w', h1, _⟩; cases h1
        · intro h; cases h with | cons h _ => unfold Accepts at h; rw [hv] at h; cases h
      | panic =>
        simp only [SRes.ofRes]
        constructor
        · rintro ⟨w', h1, _⟩; cases h1
        · intro h; cases h with | cons h _ => unfold Accepts at h; rw [hv] at h; cases h
      | fuel =>
        simp only [SRes.ofRes]
        constructor
        · rintro ⟨w', h1, _⟩; cases h1
        · intro h; cases h with | cons h _ => unfold Accepts at h; rw [hv] at h; cases h

theorem array_accepts {env : Env} {c : Ctx} {ms : List Node} {v : Value} :
    Accepts env c (.array ms) v ↔ ∃ xs, v = .array xs ∧
      ∃ w', seqLoopS (fun m w => (lim env).arr m w c) ms (WArr.new xs) = .ok w' ∧ w'.array = [] := by
  unfold Accepts validate
  rw [val_eq]
  cases v <;> simp [valBody, validateArray]
  rename_i xs
  cases seqLoopS (fun m w => (lim env).arr m w c) ms (WArr.new xs) <;> simp

/-- C12.  An array whose entries `ms` are single-item types `ts` (with or without member keys)
accepts exactly the arrays of the same length whose i-th element is accepted by the i-th type. -/
theorem C12_record (env : Env) (c : Ctx) (ms ts : List Node) (v : Value)
    (h : All2 (Entry env c) ms ts) :
    Accepts env c (.array ms) v ↔ ∃ xs, v = .array xs ∧ All2 (fun t x => Accepts env c t x) ts xs := by
  rw [array_accepts]
  constructor
  · rintro ⟨xs, rfl, h1⟩; exact ⟨xs, rfl, (record_seq h _).mp h1⟩
  · rintro ⟨xs, rfl, h1⟩; exact ⟨xs, rfl, (record_seq h _).mpr h1⟩

/-- C12: in particular the length is fixed. -/
theorem C12_length (env : Env) (c : Ctx) (ms ts : List Node) (xs : List Value)
    (h : All2 (Entry env c) ms ts) (ha : Accepts env c (.array ms) (.array xs)) :
    xs.length = ms.length := by
  obtain ⟨ys, hy, h2⟩ := (C12_record env c ms ts _ h).mp ha
  cases hy
  rw [h.length, h2.length]

/-- `[x: int, (tstr / nil), [* any]]`. -/
example : All2 (Entry (demoEnv []) top)
    [.keyValue (.literal (.text "x")) (.prelude .int) true, .choice [.prelude .tstr, .prelude .nil],
      .array [.occur .zeroOrMore (.prelude .any)]]
    [.prelude .int, .choice [.prelude .tstr, .prelude .nil],
      .array [.occur .zeroOrMore (.prelude .any)]] := by
  refine .cons (.keyed _ _ _) (.cons (.plain (.choice fun n hn => ?_)) (.cons (.plain (.array _ _)) .nil))
  simp only [List.mem_cons, List.not_mem_nil, or_false] at hn
  rcases hn with rfl | rfl
  · exact .prelude _ _
  · exact .prelude _ _
example : Accepts (demoEnv []) top (.array
    [.keyValue (.literal (.text "x")) (.prelude .int) true, .choice [.prelude .tstr, .prelude .nil]])
    (.array [.integer 1, .null]) := accepts_of_fuel 60 (by decide)

end Cddl
