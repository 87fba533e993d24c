import Verif.Model.Api

/-! # A test for equal rule tables that the kernel evaluates quickly -/

namespace Cddl

mutual
/-- Equality of nodes. -/
def Node.same : Node → Node → Bool
  | .literal a, .literal b => decide (a = b)
  | .prelude a, .prelude b => decide (a = b)
  | .rule n as, .rule m bs => decide (n = m) && Node.sames as bs
  | .choice as, .choice bs => Node.sames as bs
  | .map as, .map bs => Node.sames as bs
  | .array as, .array bs => Node.sames as bs
  | .group as, .group bs => Node.sames as bs
  | .keyValue k v c, .keyValue k' v' c' => Node.same k k' && Node.same v v' && decide (c = c')
  | .occur o n, .occur o' n' => decide (o = o') && Node.same n n'
  | .unwrap n as, .unwrap m bs => decide (n = m) && Node.sames as bs
  | .range a b i, .range a' b' i' => Node.same a a' && Node.same b b' && decide (i = i')
  | .ctl o t a, .ctl o' t' a' => decide (o = o') && Node.same t t' && Node.same a a'
  | .ctlRegexp a, .ctlRegexp b => decide (a = b)
  | .ctlCbor a, .ctlCbor b => Node.same a b
  | .choiceify n as, .choiceify m bs => decide (n = m) && Node.sames as bs
  | .choiceifyInline as, .choiceifyInline bs => Node.sames as bs
  | _, _ => false
def Node.sames : List Node → List Node → Bool
  | [], [] => true
  | a :: as, b :: bs => Node.same a b && Node.sames as bs
  | _, _ => false
end

mutual
theorem Node.same_eq : ∀ {a b : Node}, Node.same a b = true → a = b
  | .literal _, b, h | .prelude _, b, h | .ctlRegexp _, b, h => by cases b <;> simp_all [Node.same]
  | .rule n as, b, h => by
    cases b <;> simp only [Node.same, Bool.and_eq_true, decide_eq_true_eq, Bool.false_eq_true] at h
    rw [h.1, Node.sames_eq h.2]
  | .choice as, b, h => by
    cases b <;> simp only [Node.same, Bool.false_eq_true] at h
    rw [Node.sames_eq h]
  | .map as, b, h => by
    cases b <;> simp only [Node.same, Bool.false_eq_true] at h
    rw [Node.sames_eq h]
  | .array as, b, h => by
    cases b <;> simp only [Node.same, Bool.false_eq_true] at h
    rw [Node.sames_eq h]
  | .group as, b, h => by
    cases b <;> simp only [Node.same, Bool.false_eq_true] at h
    rw [Node.sames_eq h]
  | .keyValue k v c, b, h => by
    cases b <;> simp only [Node.same, Bool.and_eq_true, decide_eq_true_eq, Bool.false_eq_true] at h
    rw [Node.same_eq h.1.1, Node.same_eq h.1.2, h.2]
  | .occur o n, b, h => by
    cases b <;> simp only [Node.same, Bool.and_eq_true, decide_eq_true_eq, Bool.false_eq_true] at h
    rw [h.1, Node.same_eq h.2]
  | .unwrap n as, b, h => by
    cases b <;> simp only [Node.same, Bool.and_eq_true, decide_eq_true_eq, Bool.false_eq_true] at h
    rw [h.1, Node.sames_eq h.2]
  | .range x y i, b, h => by
    cases b <;> simp only [Node.same, Bool.and_eq_true, decide_eq_true_eq, Bool.false_eq_true] at h
    rw [Node.same_eq h.1.1, Node.same_eq h.1.2, h.2]
  | .ctl o x y, b, h => by
    cases b <;> simp only [Node.same, Bool.and_eq_true, decide_eq_true_eq, Bool.false_eq_true] at h
    rw [h.1.1, Node.same_eq h.1.2, Node.same_eq h.2]
  | .ctlCbor n, b, h => by
    cases b <;> simp only [Node.same, Bool.false_eq_true] at h
    rw [Node.same_eq h]
  | .choiceify n as, b, h => by
    cases b <;> simp only [Node.same, Bool.and_eq_true, decide_eq_true_eq, Bool.false_eq_true] at h
    rw [h.1, Node.sames_eq h.2]
  | .choiceifyInline as, b, h => by
    cases b <;> simp only [Node.same, Bool.false_eq_true] at h
    rw [Node.sames_eq h]
theorem Node.sames_eq : ∀ {a b : List Node}, Node.sames a b = true → a = b
  | [], b, h => by cases b <;> simp_all [Node.sames]
  | a :: as, b, h => by
    cases b <;> simp only [Node.sames, Bool.and_eq_true, Bool.false_eq_true] at h
    rw [Node.same_eq h.1, Node.sames_eq h.2]
end

/-- Equality of rule tables. -/
def RuleTable.same : RuleTable → RuleTable → Bool
  | [], [] => true
  | (s, d) :: t, (s', d') :: t' =>
    decide (s = s') && decide (d.params = d'.params) && Node.same d.node d'.node && RuleTable.same t t'
  | _, _ => false

theorem RuleTable.same_eq : ∀ {t t' : RuleTable}, RuleTable.same t t' = true → t = t'
  | [], [], _ => rfl
  | [], _ :: _, h => by simp [RuleTable.same] at h
  | _ :: _, [], h => by simp [RuleTable.same] at h
  | (s, ⟨p, n⟩) :: t, (s', ⟨p', n'⟩) :: t', h => by
    simp only [RuleTable.same, Bool.and_eq_true, decide_eq_true_eq] at h
    obtain ⟨⟨⟨rfl, rfl⟩, h3⟩, h4⟩ := h
    rw [Node.same_eq h3, RuleTable.same_eq h4]

/-- To be used with `by decide +kernel`. -/
theorem flattenFromStr_same {l : Libs} {s : String} {t : RuleTable}
    (h : (match flattenFromStr l s with | .ok t' => RuleTable.same t' t | _ => false) = true) :
    flattenFromStr l s = .ok t := by
  split at h
  · rename_i t' ht
    rw [ht, RuleTable.same_eq h]
  · cases h

end Cddl
