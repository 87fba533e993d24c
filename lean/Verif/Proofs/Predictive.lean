import Verif.Spec.Predictive
import Verif.Proofs.Inline
import Verif.Proofs.PredictMain

/-! # The test for predictive schemas is right -/

namespace Cddl

theorem Forecast.agreesAtB_ok {J : Forecast} {s : String} {d : RuleDef} (h : J.agreesAtB s d = true) : J.AgreesAt s d := by
  simp only [Forecast.agreesAtB, Bool.and_eq_true, Bool.or_eq_true, Bool.not_eq_true', List.all_eq_true, beq_iff_eq] at h
  obtain ⟨⟨⟨⟨⟨⟨h1, h2⟩, h3⟩, h4⟩, h5⟩, h6⟩, h7⟩ := h
  constructor
  · intro ht
    exact h1.resolve_left (by rw [ht]; simp)
  · intro ht
    have h := h2.resolve_left (by rw [ht]; simp)
    unfold RuleDef.altClear at h
    split
    · rename_i ms hd; rw [hd] at h; exact h
    · rename_i s' as hd; rw [hd] at h; exact h
    · trivial
  · intro ht
    exact h3.resolve_left (by rw [ht]; simp)
  · intro ht ms hd
    have h := h4.resolve_left (by rw [ht]; simp)
    rw [hd] at h
    exact h
  · intro ht
    exact h5.resolve_left (by rw [ht]; simp)
  · intro ht ms hd
    have h := h6.resolve_left (by rw [ht]; simp)
    rw [hd] at h
    exact h
  · intro q hq
    obtain ⟨⟨⟨⟨⟨a, b⟩, c⟩, d⟩, e⟩, f⟩ := h7 q hq
    exact ⟨a, b, c, d, e, f⟩

theorem RuleTable.decisive_agrees {t : RuleTable} {name : String} (h : t.decisive name = true) {env : Env}
    (he : env.lookup = t.lookup) : t.forecast.Agrees env := by
  intro s d hs
  rw [he] at hs
  unfold RuleTable.lookup at hs
  simp only [RuleTable.decisive, Forecast.agreesB, Bool.and_eq_true, List.all_eq_true] at h
  cases hf : t.find s with
  | none => rw [hf] at hs; cases hs
  | some d' =>
    rw [hf] at hs
    cases hs
    have hm : ∃ p ∈ t, p.1 = s := ⟨_, RuleTable.find_mem hf, rfl⟩
    obtain ⟨p, hp, rfl⟩ := hm
    have := h.1 p hp
    rw [hf] at this
    exact Forecast.agreesAtB_ok this

theorem RuleTable.predictive_decisive {t : RuleTable} {name : String} (h : t.predictive name = true) : t.decisive name = true := by
  simp only [RuleTable.predictive, Bool.and_eq_true] at h
  exact h.1

theorem RuleTable.decisive_clear {t : RuleTable} {name : String} {d : RuleDef} (h : t.decisive name = true)
    (hf : t.find name = some d) : d.node.clear t.forecast = true := by
  simp only [RuleTable.decisive, Bool.and_eq_true] at h
  have := h.2
  rw [hf] at this
  exact this

/-! ## Plain keys -/

mutual
theorem plainKey_keyed : ∀ {n : Node}, n.plainKey = true → n.plainKeyed = true
  | .literal _, _ => by simp only [Node.plainKeyed]
  | .prelude _, _ => by simp only [Node.plainKeyed]
  | .ctlRegexp _, _ => by simp only [Node.plainKeyed]
  | .choice l, h => by
    simp only [Node.plainKey] at h
    simp only [Node.plainKeyed]
    exact plainKeys_keyed h
theorem plainKeys_keyed : ∀ {l : List Node}, Node.plainKeys l = true → Node.plainKeyedL l = true
  | [], _ => by simp only [Node.plainKeyedL]
  | n :: l, h => by
    simp only [Node.plainKeys, Bool.and_eq_true] at h
    simp only [Node.plainKeyedL, plainKey_keyed h.1, plainKeys_keyed h.2, Bool.and_self]
end

theorem plainKeyedL_mem : ∀ {l : List Node}, Node.plainKeyedL l = true → ∀ n ∈ l, n.plainKeyed = true
  | a :: l, h, n, hn => by
    simp only [Node.plainKeyedL, Bool.and_eq_true] at h
    rcases List.mem_cons.mp hn with rfl | hn
    · exact h.1
    · exact plainKeyedL_mem h.2 n hn

/-- The arguments at hand have plain keys. -/
def Ctx.KeysPlain : Ctx → Prop
  | .root _ => True
  | .frame g past _ => (∀ p ∈ g, p.2.plainKeyed = true) ∧ past.KeysPlain

theorem gmapFind_pair : ∀ {g : List (String × Node)} {s : String} {n : Node}, gmapFind g s = some n → (s, n) ∈ g := fun h => by
  obtain ⟨pre, post, rfl, _⟩ := gmapFind_bound h
  simp

theorem lookupRule_plain {env : Env} (he : ∀ s d, env.lookup s = .ok d → d.node.plainKeyed = true) {c c' : Ctx} {s : String}
    {as : List Node} {n : Node} (hc : c.KeysPlain) (ha : Node.plainKeyedL as = true) (h : c.lookupRule env s as = .ok (n, c')) :
    n.plainKeyed = true ∧ c'.KeysPlain := by
  have via : ((env.lookup s).bind fun rd => (c.derive rd as).bind fun c => .ok (rd.node, c)) = (.ok (n, c') : Except Err (Node × Ctx)) →
      n.plainKeyed = true ∧ c'.KeysPlain := by
    intro h
    cases hl : env.lookup s with
    | error e => rw [hl] at h; cases h
    | ok d =>
      rw [hl] at h
      simp only [Except.bind] at h
      unfold Ctx.derive at h
      split at h
      · cases h
      · rename_i d' hd
        cases h
        refine ⟨he s d hl, ?_⟩
        split at hd
        · cases hd
        · cases hi : c.incDepth with
          | error e => rw [hi] at hd; cases hd
          | ok k =>
            rw [hi] at hd
            cases hd
            exact ⟨fun p hp => plainKeyedL_mem ha _ (List.of_mem_zip hp).2, hc⟩
  unfold Ctx.lookupRule at h
  cases c with
  | root d => exact via h
  | frame g past d =>
    dsimp only at h
    cases hg : gmapFind g s with
    | none => rw [hg] at h; exact via h
    | some a =>
      rw [hg] at h
      cases h
      exact ⟨hc.1 _ (gmapFind_pair hg), hc.2⟩

/-- Where keys use no names, no key is missed. -/
theorem plain_guard {env : Env} (he : ∀ s d, env.lookup s = .ok d → d.node.plainKeyed = true) :
    Guard env fun _ n c _ => n.plainKeyed = true ∧ c.KeysPlain where
  choice := fun ⟨h, hc⟩ hm => ⟨plainKeyedL_mem (by simpa only [Node.plainKeyed] using h) _ hm, hc⟩
  group := fun ⟨h, hc⟩ => ⟨plainKeyedL_mem (by simpa only [Node.plainKeyed] using h) _ (List.mem_singleton.mpr rfl), hc⟩
  map := fun ⟨h, hc⟩ hm => ⟨plainKeyedL_mem (by simpa only [Node.plainKeyed] using h) _ hm, hc⟩
  array := fun ⟨h, hc⟩ hm => ⟨plainKeyedL_mem (by simpa only [Node.plainKeyed] using h) _ hm, hc⟩
  cbor := fun ⟨h, hc⟩ _ => ⟨by simpa only [Node.plainKeyed] using h, hc⟩
  choiceify := fun ⟨h, hc⟩ => ⟨by simpa only [Node.plainKeyed] using h, hc⟩
  choiceifyInline := fun ⟨h, hc⟩ hm => ⟨plainKeyedL_mem (by simpa only [Node.plainKeyed] using h) _ hm, hc⟩
  rule := fun _ ⟨h, hc⟩ hr => lookupRule_plain he hc (by simpa only [Node.plainKeyed] using h) hr
  pickGroup := fun ⟨h, hc⟩ hm => ⟨plainKeyedL_mem (by simpa only [Node.plainKeyed] using h) _ hm, hc⟩
  pickKey := fun ⟨h, hc⟩ => ⟨by simp only [Node.plainKeyed, Bool.and_eq_true] at h; exact h.2, hc⟩
  pickRule := fun h => h
  pickOther := fun _ _ h => h
  item := fun _ h => h
  entryKey := fun ⟨h, hc⟩ => ⟨by simp only [Node.plainKeyed, Bool.and_eq_true] at h; exact h.2, hc⟩
  entryChoice := fun ⟨h, hc⟩ hm => ⟨plainKeyedL_mem (by simpa only [Node.plainKeyed] using h) _ hm, hc⟩
  entryGroup := fun ⟨h, hc⟩ hm => ⟨plainKeyedL_mem (by simpa only [Node.plainKeyed] using h) _ hm, hc⟩
  entryOccur := fun ⟨h, hc⟩ => ⟨by simpa only [Node.plainKeyed] using h, hc⟩
  entryUnwrap := fun ⟨h, hc⟩ hr m hm => by
    obtain ⟨h1, h2⟩ := lookupRule_plain he hc (by simpa only [Node.plainKeyed] using h) hr
    exact ⟨plainKeyedL_mem (by simpa only [Node.plainKeyed] using h1) _ hm, h2⟩
  memberKey := fun ⟨h, hc⟩ => ⟨by simp only [Node.plainKeyed, Bool.and_eq_true] at h; exact h.2, hc⟩
  memberChoice := fun ⟨h, hc⟩ hm => ⟨plainKeyedL_mem (by simpa only [Node.plainKeyed] using h) _ hm, hc⟩
  memberGroup := fun ⟨h, hc⟩ hm => ⟨plainKeyedL_mem (by simpa only [Node.plainKeyed] using h) _ hm, hc⟩
  memberOccur := fun ⟨h, hc⟩ => ⟨by simpa only [Node.plainKeyed] using h, hc⟩
  memberUnwrap := fun ⟨h, hc⟩ hr m hm => by
    obtain ⟨h1, h2⟩ := lookupRule_plain he hc (by simpa only [Node.plainKeyed] using h) hr
    exact ⟨plainKeyedL_mem (by simpa only [Node.plainKeyed] using h1) _ hm, h2⟩
  key := fun ⟨h, hc⟩ => ⟨plainKey_keyed (by simp only [Node.plainKeyed, Bool.and_eq_true] at h; exact h.1), hc⟩
  safe := fun {k t cut c i x e} ⟨h, hc⟩ _ hr => by
    simp only [Node.plainKeyed, Bool.and_eq_true] at h
    rcases (plainKey_val x c k h.1).1 with h' | ⟨m, h'⟩ <;> rw [h'] at hr <;> cases hr
    rfl

theorem RuleTable.predictive_plain {t : RuleTable} {name : String} (h : t.predictive name = true) {env : Env}
    (he : env.lookup = t.lookup) : ∀ s d, env.lookup s = .ok d → d.node.plainKeyed = true := by
  intro s d hs
  simp only [RuleTable.predictive, Bool.and_eq_true, List.all_eq_true] at h
  rw [he] at hs
  unfold RuleTable.lookup at hs
  cases hf : t.find s with
  | none => rw [hf] at hs; cases hs
  | some d' =>
    rw [hf] at hs
    cases hs
    exact h.2 _ (RuleTable.find_mem hf)

end Cddl
