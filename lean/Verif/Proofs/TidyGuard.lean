import Verif.Proofs.Tidy
import Verif.Proofs.Guard

/-! # Used as planned, no key is missed -/

namespace Cddl

/-- The node stands in a place for it. -/
def Plan.Serves (J : Plan) (u : Purpose) (n : Node) (c : Ctx) (h : Nat) : Prop :=
  ∃ P, Placed J h P c ∧ n.tidy J P u = true

theorem Plan.guard {J : Plan} {env : Env} (hJ : J.Fits env) (hl : J.limit = false) (hb : J.cbor = false) : Guard env J.Serves where
  choice := fun ⟨P, hc, h⟩ hm => ⟨P, hc, tidyL_mem (by simpa only [Node.tidy] using h) _ hm⟩
  group := fun ⟨P, hc, h⟩ => ⟨P, hc, by simpa only [Node.tidy, Node.tidyL, Bool.and_eq_true, and_true, List.length_singleton, decide_true, true_and] using h⟩
  map := fun ⟨P, hc, h⟩ hm => ⟨_, hc.enter, tidyL_mem (by simpa only [Node.tidy] using h) _ hm⟩
  array := fun ⟨P, hc, h⟩ hm => ⟨_, hc.enter, tidyL_mem (by simpa only [Node.tidy] using h) _ hm⟩
  cbor := fun ⟨P, hc, h⟩ => by
    simp only [Node.tidy, hb, Bool.false_and, Bool.false_eq_true] at h
  choiceify := fun ⟨P, hc, h⟩ => ⟨P, hc, by simpa only [Node.tidy] using h⟩
  choiceifyInline := fun ⟨P, hc, h⟩ hm => ⟨P, hc, tidyL_mem (by simpa only [Node.tidy] using h) _ hm⟩
  rule := fun {u s as n c c' i} hu ⟨P, hc, h⟩ hr => by
    have h : nameTidy J P u s as (Node.tidyArgs J P (J.params s) as) = true := by
      rcases hu with rfl | rfl | rfl | rfl <;> simpa only [Node.tidy] using h
    rcases lookupRule_tidy hJ hc h with ⟨n', c'', P', h1, h2, h3⟩ | ⟨e, h1, _⟩
    · rw [h1] at hr
      cases hr
      exact ⟨P', h2, h3⟩
    · rw [h1] at hr; cases hr
  pickGroup := fun ⟨P, hc, h⟩ hm => ⟨P, hc, tidyL_mem (by simpa only [Node.tidy] using h) _ hm⟩
  pickKey := fun ⟨P, hc, h⟩ => ⟨P, hc, by simpa only [Node.tidy] using h⟩
  pickRule := fun ⟨P, hc, h⟩ => ⟨P, hc, by simpa only [Node.tidy] using h⟩
  pickOther := fun {m c i} hk hr ⟨P, hc, h⟩ => by
    refine ⟨P, hc, ?_⟩
    cases m <;> first
      | exact absurd rfl (hk _ _ _)
      | exact absurd rfl (hr _ _)
      | (simp only [Node.tidy] at h ⊢; exact h)
      | (simp only [Node.tidy] at h ⊢; done)
      | (simp only [Node.tidy, Bool.false_eq_true] at h)
  item := fun {n c i} hi ⟨P, hc, h⟩ => by
    refine ⟨P, hc, ?_⟩
    cases n <;> simp only [Node.isItem, Bool.false_eq_true] at hi <;> first
      | (simp only [Node.tidy] at h ⊢; exact h)
      | (simp only [Node.tidy] at h ⊢; done)
  entryKey := fun ⟨P, hc, h⟩ => ⟨P, hc, by simpa only [Node.tidy] using h⟩
  entryChoice := fun ⟨P, hc, h⟩ hm => ⟨P, hc, tidyL_mem (by simpa only [Node.tidy] using h) _ hm⟩
  entryGroup := fun ⟨P, hc, h⟩ hm => ⟨P, hc, tidyL_mem (by simpa only [Node.tidy] using h) _ hm⟩
  entryOccur := fun ⟨P, hc, h⟩ => ⟨P, hc, by simpa only [Node.tidy] using h⟩
  entryUnwrap := fun ⟨P, hc, h⟩ hr m hm => by
    simp only [Node.tidy] at h
    rcases lookupRule_tidy hJ hc h with ⟨n', c'', P', h1, h2, h3⟩ | ⟨e, h1, _⟩
    · rw [h1] at hr
      cases hr
      exact ⟨P', h2, tidyL_mem (by simpa only [Node.tidy] using h3) _ hm⟩
    · rw [h1] at hr; cases hr
  memberKey := fun ⟨P, hc, h⟩ => ⟨P, hc, by simp only [Node.tidy, Bool.and_eq_true] at h; exact h.2⟩
  memberChoice := fun ⟨P, hc, h⟩ hm => ⟨P, hc, tidyL_mem (by simpa only [Node.tidy] using h) _ hm⟩
  memberGroup := fun ⟨P, hc, h⟩ hm => ⟨P, hc, tidyL_mem (by simpa only [Node.tidy] using h) _ hm⟩
  memberOccur := fun ⟨P, hc, h⟩ => ⟨P, hc, by simpa only [Node.tidy] using h⟩
  memberUnwrap := fun ⟨P, hc, h⟩ hr m hm => by
    simp only [Node.tidy] at h
    rcases lookupRule_tidy hJ hc h with ⟨n', c'', P', h1, h2, h3⟩ | ⟨e, h1, _⟩
    · rw [h1] at hr
      cases hr
      exact ⟨P', h2, tidyL_mem (by simpa only [Node.tidy] using h3) _ hm⟩
    · rw [h1] at hr; cases hr
  key := fun ⟨P, hc, h⟩ => ⟨P, hc, by simp only [Node.tidy, Bool.and_eq_true] at h; exact h.1⟩
  safe := fun {k t cut c i x e} ⟨P, hc, h⟩ hx hr => by
    simp only [Node.tidy, Bool.and_eq_true] at h
    have : ((lim env).val x k c).Errs J.Ok fun _ => True := by
      obtain ⟨N, hN⟩ := (lim_ev env).val x k c
      rw [← hN N (Nat.le_refl _)]
      exact (fns_tidy hJ N).val x k c _ P hx hc h.1
    rw [hr] at this
    have this : J.Ok e := this
    cases e <;> simp only [Plan.Ok, hl, hb, Bool.false_eq_true, false_and] at this <;> rfl

end Cddl
