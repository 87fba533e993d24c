import Verif.Spec.NoAny
import Verif.Spec.Stands

/-! # How many brackets stand around what data is matched with -/

namespace Cddl

/-- No parameters are in scope. -/
def Ctx.unbound : Ctx → Prop
  | .root _ => True
  | .frame g past _ => g = [] ∧ past.unbound

/-- The brackets still to come: those of the node, and `B` for every rule that can still be looked up. -/
def Ctx.reach (B : Nat) (c : Ctx) (n : Node) : Nat := n.brackets + (50 - c.depth) * B

theorem bracketsL_mem {n : Node} : ∀ {l : List Node}, n ∈ l → n.brackets ≤ Node.bracketsL l
  | [], h => by cases h
  | m :: l, h => by
    simp only [Node.bracketsL]
    rcases List.mem_cons.mp h with rfl | h
    · exact Nat.le_max_left ..
    · exact Nat.le_trans (bracketsL_mem h) (Nat.le_max_right ..)

variable {env : Env} {B : Nat} (hB : ∀ s rd, env.lookup s = .ok rd → rd.params = [] ∧ rd.node.brackets ≤ B)
include hB

theorem lookup_reach {c c' : Ctx} (hc : c.unbound) {s : String} {as : List Node} {n : Node}
    (h : c.lookupRule env s as = .ok (n, c')) : c'.unbound ∧ n.brackets + (50 - c'.depth) * B ≤ (50 - c.depth) * B := by
  have via : ∀ (h : ((env.lookup s).bind fun rd => (c.derive rd as).bind fun c => Except.ok (rd.node, c)) = .ok (n, c')),
      c'.unbound ∧ n.brackets + (50 - c'.depth) * B ≤ (50 - c.depth) * B := by
    intro h
    cases hl : env.lookup s with
    | error e => rw [hl] at h; cases h
    | ok rd =>
      rw [hl] at h
      simp only [Except.bind] at h
      cases hd : c.derive rd as with
      | error e => rw [hd] at h; cases h
      | ok c1 =>
        rw [hd] at h
        cases h
        unfold Ctx.derive at hd
        split at hd
        · cases hd
        · unfold Ctx.incDepth maxDepth at hd
          split at hd
          · cases hd
          · rename_i hlt
            cases hd
            obtain ⟨h1, h2⟩ := hB s rd hl
            refine ⟨⟨by rw [h1]; rfl, hc⟩, ?_⟩
            show _ + (50 - (c.depth + 1)) * B ≤ _
            have e : 50 - c.depth = (50 - (c.depth + 1)) + 1 := by omega
            rw [e, Nat.add_mul, Nat.one_mul, Nat.add_comm]
            exact Nat.add_le_add_left h2 _
  unfold Ctx.lookupRule at h
  cases c with
  | root d => exact via h
  | frame g past d =>
    obtain ⟨rfl, hp⟩ := hc
    exact via h

theorem ElementOf.reach {c d : Ctx} {n t : Node} (h : ElementOf env c n d t) (hc : c.unbound) :
    d.unbound ∧ d.reach B t ≤ c.reach B n := by
  unfold Ctx.reach
  induction h with
  | alone => exact ⟨hc, Nat.le_refl _⟩
  | keyed =>
    refine ⟨hc, Nat.add_le_add_right ?_ _⟩
    simp only [Node.brackets]
    exact Nat.le_max_right ..
  | rule hl _ ih =>
    obtain ⟨h1, h2⟩ := lookup_reach hB hc hl
    obtain ⟨h3, h4⟩ := ih h1
    exact ⟨h3, Nat.le_trans h4 (Nat.le_trans h2 (Nat.le_add_left ..))⟩
  | unwrap hl hm _ ih =>
    obtain ⟨h1, h2⟩ := lookup_reach hB hc hl
    obtain ⟨h3, h4⟩ := ih h1
    have := bracketsL_mem hm
    simp only [Node.brackets] at h2
    exact ⟨h3, by omega⟩
  | choice hm _ ih =>
    obtain ⟨h3, h4⟩ := ih hc
    have := bracketsL_mem hm
    simp only [Node.brackets]
    exact ⟨h3, by omega⟩
  | group hm _ ih =>
    obtain ⟨h3, h4⟩ := ih hc
    have := bracketsL_mem hm
    simp only [Node.brackets]
    exact ⟨h3, by omega⟩
  | occur _ ih => simpa only [Node.brackets] using ih hc

omit hB in
theorem entryOf_brackets (n : Node) : n.entryOf.brackets ≤ n.brackets := by
  cases n with
  | keyValue k v x =>
    simp only [Node.entryOf, Node.brackets]
    exact Nat.le_max_right ..
  | _ => exact Nat.le_refl _

theorem PairOf.reach {c d : Ctx} {n k t : Node} (h : PairOf env c n d k t) (hc : c.unbound) :
    d.unbound ∧ d.reach B k ≤ c.reach B n ∧ d.reach B t ≤ c.reach B n := by
  unfold Ctx.reach
  induction h with
  | pair =>
    simp only [Node.brackets]
    exact ⟨hc, Nat.add_le_add_right (Nat.le_max_left ..) _, Nat.add_le_add_right (Nat.le_max_right ..) _⟩
  | rule hl _ ih =>
    obtain ⟨h1, h2⟩ := lookup_reach hB hc hl
    obtain ⟨h3, h4, h5⟩ := ih h1
    exact ⟨h3, by omega, by omega⟩
  | unwrap hl hm _ ih =>
    obtain ⟨h1, h2⟩ := lookup_reach hB hc hl
    obtain ⟨h3, h4, h5⟩ := ih h1
    have := bracketsL_mem hm
    simp only [Node.brackets] at h2
    exact ⟨h3, by omega, by omega⟩
  | choice hm _ ih =>
    obtain ⟨h3, h4, h5⟩ := ih hc
    have := bracketsL_mem hm
    simp only [Node.brackets]
    exact ⟨h3, by omega, by omega⟩
  | inline hm _ ih =>
    obtain ⟨h3, h4, h5⟩ := ih hc
    have := bracketsL_mem hm
    simp only [Node.brackets]
    exact ⟨h3, by omega, by omega⟩
  | group hm _ ih =>
    obtain ⟨h3, h4, h5⟩ := ih hc
    have := bracketsL_mem hm
    simp only [Node.brackets]
    exact ⟨h3, by omega, by omega⟩
  | occur _ ih => simpa only [Node.brackets] using ih hc
  | @choiceify _ _ _ _ _ m _ _ _ hl hm _ _ ih =>
    obtain ⟨h1, h2⟩ := lookup_reach hB hc hl
    obtain ⟨h3, h4, h5⟩ := ih h1
    have := bracketsL_mem hm
    have := entryOf_brackets m
    simp only [Node.brackets] at h2 ⊢
    exact ⟨h3, by omega, by omega⟩
  | choiceifyMember hl hm _ ih =>
    obtain ⟨h1, h2⟩ := lookup_reach hB hc hl
    obtain ⟨h3, h4, h5⟩ := ih h1
    simp only [Node.brackets] at h2 h4 h5 ⊢
    exact ⟨h3, by omega, by omega⟩
  | choiceifyName hl _ ih =>
    obtain ⟨h1, h2⟩ := lookup_reach hB hc hl
    obtain ⟨h3, h4, h5⟩ := ih h1
    simp only [Node.brackets] at h2 h4 h5 ⊢
    exact ⟨h3, by omega, by omega⟩

end Cddl
