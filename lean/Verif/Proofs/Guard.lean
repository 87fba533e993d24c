import Verif.Spec.Tidy
import Verif.Spec.Cong
import Verif.Proofs.Limit

/-! # What keeps errors of the schema out of the search for keys

Errors met while looking for a key of a map are passed over, so a key that is described could be missed.  `Guard` says
of the nodes met below a node that this does not happen; `S u n c h`: for data of height at most `h`, where the node `n`
is used for `u`. -/

namespace Cddl

/-- A property of nodes that is passed on to the nodes below, and by which no key is missed. -/
structure Guard (env : Env) (S : Purpose → Node → Ctx → Nat → Prop) : Prop where
  choice : ∀ {os n c h}, S .type (.choice os) c h → n ∈ os → S .type n c h
  group : ∀ {m c h}, S .type (.group [m]) c h → S .type m c h
  map : ∀ {ms m c h}, S .type (.map ms) c (h + 1) → m ∈ ms → S .member m c h
  array : ∀ {ms m c h}, S .type (.array ms) c (h + 1) → m ∈ ms → S .entry m c h
  cbor : ∀ {n c h}, S .type (.ctlCbor n) c h → ∀ h', S .type n c h'
  choiceify : ∀ {s as c h}, S .type (.choiceify s as) c h → S .pick (.rule s as) c h
  choiceifyInline : ∀ {ms m c h}, S .type (.choiceifyInline ms) c h → m ∈ ms → S .pickItem m c h
  rule : ∀ {u s as n c c' h}, u = .type ∨ u = .entry ∨ u = .member ∨ u = .pick → S u (.rule s as) c h →
    c.lookupRule env s as = .ok (n, c') → S u n c' h
  pickGroup : ∀ {ms m c h}, S .pick (.group ms) c h → m ∈ ms → S .pickItem m c h
  pickKey : ∀ {k t cut c h}, S .pickItem (.keyValue k t cut) c h → S .type t c h
  pickRule : ∀ {s as c h}, S .pickItem (.rule s as) c h → S .pick (.rule s as) c h
  pickOther : ∀ {m c h}, (∀ k t cut, m ≠ .keyValue k t cut) → (∀ s as, m ≠ .rule s as) → S .pickItem m c h → S .type m c h
  item : ∀ {n c h}, n.isItem = true → S .entry n c h → S .type n c h
  entryKey : ∀ {k t cut c h}, S .entry (.keyValue k t cut) c h → S .type t c h
  entryChoice : ∀ {os n c h}, S .entry (.choice os) c h → n ∈ os → S .entry n c h
  entryGroup : ∀ {ms m c h}, S .entry (.group ms) c h → m ∈ ms → S .entry m c h
  entryOccur : ∀ {o n c h}, S .entry (.occur o n) c h → S .entry n c h
  entryUnwrap : ∀ {s as ms c c' h}, S .entry (.unwrap s as) c h → c.lookupRule env s as = .ok (.array ms, c') →
    ∀ m ∈ ms, S .entry m c' h
  memberKey : ∀ {k t cut c h}, S .member (.keyValue k t cut) c h → S .type t c h
  memberChoice : ∀ {os n c h}, S .member (.choice os) c h → n ∈ os → S .member n c h
  memberGroup : ∀ {ms m c h}, S .member (.group ms) c h → m ∈ ms → S .member m c h
  memberOccur : ∀ {o n c h}, S .member (.occur o n) c h → S .member n c h
  memberUnwrap : ∀ {s as ms c c' h}, S .member (.unwrap s as) c h → c.lookupRule env s as = .ok (.map ms, c') →
    ∀ m ∈ ms, S .member m c' h
  key : ∀ {k t cut c h}, S .member (.keyValue k t cut) c h → S .type k c h
  safe : ∀ {k t cut c h x e}, S .member (.keyValue k t cut) c h → x.height ≤ h → (lim env).val x k c = .err e →
    e.isFatal = false

theorem Value.height_mem : ∀ {l : List Value} {v : Value}, v ∈ l → v.height ≤ Value.heightL l
  | u :: l, v, hv => by
    simp only [Value.heightL]
    rcases List.mem_cons.mp hv with rfl | hv
    · exact Nat.le_max_left _ _
    · exact Nat.le_trans (Value.height_mem hv) (Nat.le_max_right _ _)

theorem Value.height_pair : ∀ {l : List (Value × Value)} {p : Value × Value}, p ∈ l →
    p.1.height ≤ Value.heightM l ∧ p.2.height ≤ Value.heightM l
  | (k, u) :: l, p, hv => by
    simp only [Value.heightM]
    rcases List.mem_cons.mp hv with rfl | hv
    · exact ⟨Nat.le_trans (Nat.le_max_left _ _) (Nat.le_max_left _ _), Nat.le_trans (Nat.le_max_right _ _) (Nat.le_max_left _ _)⟩
    · have := Value.height_pair hv
      exact ⟨Nat.le_trans this.1 (Nat.le_max_right _ _), Nat.le_trans this.2 (Nat.le_max_right _ _)⟩

end Cddl
