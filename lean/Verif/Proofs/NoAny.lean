import Verif.Spec.NoAny
import Verif.Spec.Stands

/-! # Where `any` is not mentioned it does not stand -/

namespace Cddl

/-- The arguments in scope do not mention `any`. -/
def Ctx.noAny : Ctx → Prop
  | .root _ => True
  | .frame g past _ => (∀ p ∈ g, p.2.noAny = true) ∧ past.noAny

theorem noAnyL_mem {n : Node} : ∀ {l : List Node}, Node.noAnyL l = true → n ∈ l → n.noAny = true
  | [], _, h => by cases h
  | m :: l, hl, h => by
    simp only [Node.noAnyL, Bool.and_eq_true] at hl
    rcases List.mem_cons.mp h with rfl | h
    · exact hl.1
    · exact noAnyL_mem hl.2 h

theorem gmapFind_snd {s : String} {n : Node} : ∀ {g : List (String × Node)}, gmapFind g s = some n → ∃ p ∈ g, p.2 = n
  | [], h => by cases h
  | (a, b) :: g, h => by
    unfold gmapFind at h
    cases hg : gmapFind g s with
    | some x =>
      rw [hg] at h
      cases h
      obtain ⟨p, hp, e⟩ := gmapFind_snd hg
      exact ⟨p, List.mem_cons_of_mem _ hp, e⟩
    | none =>
      rw [hg] at h
      simp only at h
      split at h
      · cases h
        exact ⟨_, List.mem_cons_self, rfl⟩
      · cases h

variable {env : Env} (he : ∀ s rd, env.lookup s = .ok rd → rd.node.noAny = true)
include he

theorem lookup_noAny {c c' : Ctx} (hc : c.noAny) {s : String} {as : List Node} (ha : Node.noAnyL as = true) {n : Node}
    (h : c.lookupRule env s as = .ok (n, c')) : n.noAny = true ∧ c'.noAny := by
  have via : ∀ (h : ((env.lookup s).bind fun rd => (c.derive rd as).bind fun c => Except.ok (rd.node, c)) = .ok (n, c')),
      n.noAny = true ∧ c'.noAny := by
    intro h
    cases hl : env.lookup s with
    | error e => rw [hl] at h; cases h
    | ok rd =>
      rw [hl] at h
      simp only [Except.bind] at h
      cases hd : c.derive rd as with
      | error e => rw [hd] at h; cases h
      | ok c1 =>
        rw [hd] at h
        cases h
        refine ⟨he s rd hl, ?_⟩
        unfold Ctx.derive at hd
        split at hd
        · cases hd
        · cases hi : c.incDepth with
          | error e => rw [hi] at hd; cases hd
          | ok d =>
            rw [hi] at hd
            cases hd
            exact ⟨fun p hp => noAnyL_mem ha (List.of_mem_zip hp).2, hc⟩
  unfold Ctx.lookupRule at h
  cases c with
  | root d => exact via h
  | frame g past d =>
    simp only at h
    cases hg : gmapFind g s with
    | some x =>
      rw [hg] at h
      cases h
      obtain ⟨p, hp, rfl⟩ := gmapFind_snd hg
      exact ⟨hc.1 p hp, hc.2⟩
    | none =>
      rw [hg] at h
      exact via h

theorem entryOf_noAny {n : Node} (h : n.noAny = true) : n.entryOf.noAny = true := by
  cases n with
  | keyValue k v x =>
    simp only [Node.noAny, Bool.and_eq_true] at h
    exact h.2
  | _ => exact h

theorem ElementOf.noAny {c d : Ctx} {n t : Node} (h : ElementOf env c n d t) (hc : c.noAny) (hn : n.noAny = true) :
    t.noAny = true ∧ d.noAny := by
  induction h with
  | alone => exact ⟨hn, hc⟩
  | keyed =>
    simp only [Node.noAny, Bool.and_eq_true] at hn
    exact ⟨hn.2, hc⟩
  | rule hl _ ih =>
    obtain ⟨h1, h2⟩ := lookup_noAny he hc (by simpa only [Node.noAny] using hn) hl
    exact ih h2 h1
  | unwrap hl hm _ ih =>
    obtain ⟨h1, h2⟩ := lookup_noAny he hc (by simpa only [Node.noAny] using hn) hl
    exact ih h2 (noAnyL_mem (by simpa only [Node.noAny] using h1) hm)
  | choice hm _ ih => exact ih hc (noAnyL_mem (by simpa only [Node.noAny] using hn) hm)
  | group hm _ ih => exact ih hc (noAnyL_mem (by simpa only [Node.noAny] using hn) hm)
  | occur _ ih => exact ih hc (by simpa only [Node.noAny] using hn)

theorem PairOf.noAny {c d : Ctx} {n k t : Node} (h : PairOf env c n d k t) (hc : c.noAny) (hn : n.noAny = true) :
    (k.noAny = true ∧ t.noAny = true) ∧ d.noAny := by
  induction h with
  | pair =>
    simp only [Node.noAny, Bool.and_eq_true] at hn
    exact ⟨hn, hc⟩
  | rule hl _ ih =>
    obtain ⟨h1, h2⟩ := lookup_noAny he hc (by simpa only [Node.noAny] using hn) hl
    exact ih h2 h1
  | unwrap hl hm _ ih =>
    obtain ⟨h1, h2⟩ := lookup_noAny he hc (by simpa only [Node.noAny] using hn) hl
    exact ih h2 (noAnyL_mem (by simpa only [Node.noAny] using h1) hm)
  | choice hm _ ih => exact ih hc (noAnyL_mem (by simpa only [Node.noAny] using hn) hm)
  | inline hm _ ih => exact ih hc (noAnyL_mem (by simpa only [Node.noAny] using hn) hm)
  | group hm _ ih => exact ih hc (noAnyL_mem (by simpa only [Node.noAny] using hn) hm)
  | occur _ ih => exact ih hc (by simpa only [Node.noAny] using hn)
  | choiceify hl hm _ _ ih =>
    obtain ⟨h1, h2⟩ := lookup_noAny he hc (by simpa only [Node.noAny] using hn) hl
    exact ih h2 (entryOf_noAny he (noAnyL_mem (by simpa only [Node.noAny] using h1) hm))
  | choiceifyMember hl hm _ ih =>
    obtain ⟨h1, h2⟩ := lookup_noAny he hc (by simpa only [Node.noAny] using hn) hl
    have := noAnyL_mem (by simpa only [Node.noAny] using h1) hm
    exact ih h2 (by simpa only [Node.noAny] using this)
  | choiceifyName hl _ ih =>
    obtain ⟨h1, h2⟩ := lookup_noAny he hc (by simpa only [Node.noAny] using hn) hl
    exact ih h2 (by simpa only [Node.noAny] using h1)

theorem Under.noAny {c d : Ctx} {n t : Node} (h : Under env c n d t) (hc : c.noAny) (hn : n.noAny = true) :
    t.noAny = true := by
  induction h with
  | self => exact hn
  | rule hl _ ih =>
    obtain ⟨h1, h2⟩ := lookup_noAny he hc (by simpa only [Node.noAny] using hn) hl
    exact ih h2 h1
  | choice hm _ ih => exact ih hc (noAnyL_mem (by simpa only [Node.noAny] using hn) hm)
  | group _ ih => exact ih hc (noAnyL_mem (by simpa only [Node.noAny] using hn) List.mem_cons_self)
  | element hm hx _ ih =>
    obtain ⟨h1, h2⟩ := hx.noAny he hc (noAnyL_mem (by simpa only [Node.noAny] using hn) hm)
    exact ih h2 h1
  | key hm hx _ ih =>
    obtain ⟨h1, h2⟩ := hx.noAny he hc (noAnyL_mem (by simpa only [Node.noAny] using hn) hm)
    exact ih h2 h1.1
  | value hm hx _ ih =>
    obtain ⟨h1, h2⟩ := hx.noAny he hc (noAnyL_mem (by simpa only [Node.noAny] using hn) hm)
    exact ih h2 h1.2
  | cbor _ ih => exact ih hc (by simpa only [Node.noAny] using hn)
  | inline hm _ _ ih => exact ih hc (entryOf_noAny he (noAnyL_mem (by simpa only [Node.noAny] using hn) hm))
  | inlineMember hm _ ih =>
    have := noAnyL_mem (by simpa only [Node.noAny] using hn) hm
    exact ih hc (by simpa only [Node.noAny] using this)
  | choiceify hl hm _ _ ih =>
    obtain ⟨h1, h2⟩ := lookup_noAny he hc (by simpa only [Node.noAny] using hn) hl
    exact ih h2 (entryOf_noAny he (noAnyL_mem (by simpa only [Node.noAny] using h1) hm))
  | choiceifyMember hl hm _ ih =>
    obtain ⟨h1, h2⟩ := lookup_noAny he hc (by simpa only [Node.noAny] using hn) hl
    have := noAnyL_mem (by simpa only [Node.noAny] using h1) hm
    exact ih h2 (by simpa only [Node.noAny] using this)
  | choiceifyName hl _ ih =>
    obtain ⟨h1, h2⟩ := lookup_noAny he hc (by simpa only [Node.noAny] using hn) hl
    exact ih h2 (by simpa only [Node.noAny] using h1)

/-- So `any` does not stand under a type that does not mention it. -/
theorem under_noAny {n : Node} {k : Nat} (hn : n.noAny = true) : ∀ d, ¬ Under env (.root k) n d (.prelude .any) := by
  intro d h
  have := h.noAny he trivial hn
  simp [Node.noAny] at this

end Cddl
