import Verif.Spec.Demo
import Verif.Spec.Stands
import Verif.Proofs.Asked

/-! # What is taken from an array or map has been matched -/

namespace Cddl

/-- The working copy that is left has the property, after success and after failure. -/
def Leaves {σ : Type} (I : σ → Prop) : SRes σ → Prop
  | .ok w => I w
  | .err _ w => I w
  | _ => True

variable {σ : Type} {I : σ → Prop}

theorem leaves_choice {f : Node → σ → SRes σ} {stop : Err → Bool} {msg : String} : ∀ {l : List Node} {w : σ},
    (∀ n ∈ l, ∀ w, I w → Leaves I (f n w)) → I w → Leaves I (choiceLoopS f stop msg l w)
  | [], _, _, h => h
  | n :: l, w, hf, h => by
    have h1 := hf n List.mem_cons_self w h
    have ih : ∀ w, I w → Leaves I (choiceLoopS f stop msg l w) :=
      fun w => leaves_choice fun m hm => hf m (List.mem_cons_of_mem _ hm)
    unfold choiceLoopS
    cases hr : f n w with
    | ok w' => rw [hr] at h1; exact h1
    | err e w' =>
      rw [hr] at h1
      simp only
      split
      · exact h1
      · exact ih _ h1
    | panic => trivial
    | fuel => trivial

theorem leaves_seq {f : Node → σ → SRes σ} : ∀ {l : List Node} {w : σ},
    (∀ n ∈ l, ∀ w, I w → Leaves I (f n w)) → I w → Leaves I (seqLoopS f l w)
  | [], _, _, h => h
  | n :: l, w, hf, h => by
    have h1 := hf n List.mem_cons_self w h
    have ih : ∀ w, I w → Leaves I (seqLoopS f l w) :=
      fun w => leaves_seq fun m hm => hf m (List.mem_cons_of_mem _ hm)
    unfold seqLoopS
    cases hr : f n w with
    | ok w' => rw [hr] at h1; exact ih _ h1
    | err e w' => rw [hr] at h1; exact h1
    | panic => trivial
    | fuel => trivial

theorem leaves_occur {f : σ → SRes σ} {lo up : Nat} {msg : String} (hf : ∀ w, I w → Leaves I (f w)) :
    ∀ (k count : Nat) {w : σ}, I w → Leaves I (occurLoopS f lo up msg k count w)
  | 0, _, _, _ => trivial
  | k + 1, count, w, h => by
    have h1 := hf w h
    unfold occurLoopS
    cases hr : f w with
    | ok w' =>
      rw [hr] at h1
      simp only
      split
      · split <;> exact h1
      · exact leaves_occur hf k _ h1
    | err e w' =>
      rw [hr] at h1
      simp only
      split
      · split <;> exact h1
      · exact h1
    | panic => trivial
    | fuel => trivial

/-! ## Arrays -/

/-- The elements still there, but for those with the property. -/
structure ALeft (xs : List Value) (G : Value → Prop) (w : WArr) : Prop where
  left : ∀ x ∈ xs, x ∈ w.array ∨ G x
  array : ∀ x ∈ w.array, x ∈ xs
  snaps : ∀ s ∈ w.snaps, ∀ x ∈ s, x ∈ xs

variable {env : Env} {xs : List Value} {G : Value → Prop} {s : Rec} {P : Value → Node → Ctx → Prop}

theorem ALeft.snapshot {w : WArr} (h : ALeft xs G w) : ALeft xs G w.snapshot := by
  refine ⟨h.left, h.array, ?_⟩
  intro a ha p hp
  rcases List.mem_cons.mp ha with rfl | ha
  · cases hp
  · exact h.snaps a ha p hp

/-- Whatever the entry lets through has the property. -/
def GoodA (env : Env) (P : Value → Node → Ctx → Prop) (G : Value → Prop) (n : Node) (c : Ctx) : Prop :=
  ∀ d t x, ElementOf env c n d t → P x t d → G x

theorem arrayValue_leaves (hv : ∀ v n c, s.val v n c = .ok () → P v n c) {t : Node} {c : Ctx}
    (hg : ∀ x, P x t c → G x) {w : WArr} (h : ALeft xs G w) :
    Leaves (ALeft xs G) (validateArrayValue env s t w c) := by
  unfold validateArrayValue
  split
  · rename_i x rest ha
    cases hr : s.val x t c with
    | ok u =>
      simp only
      have hx := hg x (hv _ _ _ hr)
      have key : ∀ y ∈ xs, y ∈ rest ∨ G y := by
        intro y hy
        rcases h.left y hy with h | h
        · rw [ha] at h
          rcases List.mem_cons.mp h with rfl | h
          · exact .inr hx
          · exact .inl h
        · exact .inr h
      unfold WArr.popFront
      rw [ha]
      have hin : ∀ y ∈ rest, y ∈ xs := fun y hy => h.array y (by simp [ha, hy])
      cases hs : w.snaps with
      | nil => exact ⟨key, hin, by simp⟩
      | cons a as =>
        refine ⟨key, hin, ?_⟩
        intro b hb q hq
        rcases List.mem_cons.mp hb with rfl | hb
        · rcases List.mem_append.mp hq with hq | hq
          · exact h.snaps a (by simp [hs]) q hq
          · rw [List.mem_singleton.mp hq]
            exact h.array x (by simp [ha])
        · exact h.snaps b (by simp [hs, hb]) q hq
    | err e => exact h
    | panic => trivial
    | fuel => trivial
  · exact h

theorem arr_leaves (hv : ∀ v n c, s.val v n c = .ok () → P v n c)
    (ha : ∀ {n c w}, GoodA env P G n c → ALeft xs G w → Leaves (ALeft xs G) (s.arr n w c)) {n : Node} {c : Ctx} {w : WArr}
    (hg : GoodA env P G n c) (h : ALeft xs G w) : Leaves (ALeft xs G) (arrBody env s n w c) := by
  have alone : n.isElement = true → (∀ k t x, n ≠ .keyValue k t x) →
      Leaves (ALeft xs G) (validateArrayValue env s n w c) :=
    fun h1 h2 => arrayValue_leaves hv (fun x hx => hg _ _ _ (.alone c h1 h2) hx) h
  cases n with
  | rule name as =>
    simp only [arrBody]
    cases hl : c.lookupRule env name as with
    | error e => exact h
    | ok a =>
      obtain ⟨m, c'⟩ := a
      exact ha (fun d t x ht => hg d t x (.rule hl ht)) h
  | unwrap name as =>
    simp only [arrBody]
    cases hl : c.lookupRule env name as with
    | error e => exact h
    | ok a =>
      obtain ⟨m, c'⟩ := a
      simp only [validateArrayUnwrap]
      split
      · exact leaves_seq (fun m hm w hw => ha (fun d t x ht => hg d t x (.unwrap hl hm ht)) hw) h
      · exact h
  | choice l => exact leaves_choice (fun m hm w hw => ha (fun d t x ht => hg d t x (.choice hm ht)) hw) h
  | group l =>
    simp only [arrBody, validateArrayGroup]
    have hs : Leaves (ALeft xs G) (seqLoopS (fun m w => s.arr m w c) l w.snapshot) :=
      leaves_seq (fun m hm w hw => ha (fun d t x ht => hg d t x (.group hm ht)) hw) h.snapshot
    cases hr : seqLoopS (fun m w => s.arr m w c) l w.snapshot with
    | ok w1 =>
      rw [hr] at hs
      simp only [WArr.commit]
      cases hq : w1.snaps with
      | nil => trivial
      | cons q qs => exact ⟨hs.left, hs.array, fun a ha => hs.snaps a (by simp [hq, ha])⟩
    | err e w1 =>
      rw [hr] at hs
      simp only [WArr.rewind]
      cases hq : w1.snaps with
      | nil => trivial
      | cons q qs =>
        refine ⟨?_, ?_, fun a ha => hs.snaps a (by simp [hq, ha])⟩
        · intro x hx
          rcases hs.left x hx with h | h
          · exact .inl (List.mem_append.mpr (.inr h))
          · exact .inr h
        · intro x hx
          rcases List.mem_append.mp hx with h | h
          · exact hs.snaps q (by simp [hq]) x h
          · exact hs.array x h
    | panic => trivial
    | fuel => trivial
  | keyValue k t x => exact arrayValue_leaves hv (fun y hy => hg _ _ _ (.keyed c k t x) hy) h
  | occur o n => exact leaves_occur (fun w hw => ha (fun d t x ht => hg d t x (.occur ht)) hw) _ _ h
  | _ => exact alone rfl (by simp)

theorem fns_arr_leaves : ∀ (k : Nat), (∀ j < k, ∀ v n c, (fns env j).val v n c = .ok () → P v n c) →
    ∀ {n : Node} {c : Ctx} {w : WArr}, GoodA env P G n c → ALeft xs G w → Leaves (ALeft xs G) ((fns env k).arr n w c)
  | 0, _, _, _, _, _, _ => trivial
  | k + 1, hv, _, _, _, hg, h =>
    arr_leaves (hv k (Nat.lt_succ_self k)) (fns_arr_leaves k fun j hj => hv j (Nat.lt_succ_of_lt hj)) hg h

/-! ## Maps -/

/-- The pairs still there, but for those with the property. -/
structure MLeft (m : VMap) (G : Value × Value → Prop) (w : WMap) : Prop where
  left : ∀ p ∈ m, p ∈ w.map ∨ G p
  map : ∀ p ∈ w.map, p ∈ m
  snaps : ∀ s ∈ w.snaps, ∀ p ∈ s, p ∈ m

variable {m : VMap} {M : Value × Value → Prop}

theorem MLeft.snapshot {w : WMap} (h : MLeft m M w) : MLeft m M w.snapshot := by
  refine ⟨h.left, h.map, ?_⟩
  intro a ha p hp
  rcases List.mem_cons.mp ha with rfl | ha
  · cases hp
  · exact h.snaps a ha p hp

/-- Whatever the entry lets through has the property. -/
def GoodM (env : Env) (P : Value → Node → Ctx → Prop) (M : Value × Value → Prop) (n : Node) (c : Ctx) : Prop :=
  ∀ d k t p, PairOf env c n d k t → P p.1 k d → P p.2 t d → M p

theorem vremove_left {k v : Value} {p : Value × Value} : ∀ {m m' : VMap}, VMap.remove m k = some (v, m') → p ∈ m →
    p = (k, v) ∨ p ∈ m'
  | [], _, h, _ => by cases h
  | (k', v') :: t, m', h, hp => by
    simp only [VMap.remove] at h
    cases hc : Value.cmp k k' with
    | lt => rw [hc] at h; cases h
    | eq =>
      rw [hc] at h
      cases h
      rw [(Value.cmp_eq _ _).mp hc]
      exact List.mem_cons.mp hp
    | gt =>
      rw [hc] at h
      dsimp only at h
      cases hr : VMap.remove t k with
      | none => rw [hr] at h; cases h
      | some q =>
        obtain ⟨u, t'⟩ := q
        rw [hr] at h
        cases h
        rcases List.mem_cons.mp hp with rfl | hp
        · exact .inr List.mem_cons_self
        · rcases vremove_left hr hp with h | h
          · exact .inl h
          · exact .inr (List.mem_cons_of_mem _ h)

theorem vinsert_left {k v : Value} {p : Value × Value} : ∀ {m : VMap}, p ∈ m → p.1 ≠ k → p ∈ VMap.insert m k v
  | [], h, _ => by cases h
  | (k', v') :: t, h, hk => by
    simp only [VMap.insert]
    cases hc : Value.cmp k k' with
    | lt => simp [h]
    | eq =>
      rcases List.mem_cons.mp h with rfl | h
      · exact absurd ((Value.cmp_eq _ _).mp hc).symm hk
      · exact List.mem_cons_of_mem _ h
    | gt =>
      rcases List.mem_cons.mp h with rfl | h
      · exact List.mem_cons_self
      · exact List.mem_cons_of_mem _ (vinsert_left h hk)

theorem vinsert_self {k v : Value} : ∀ {m : VMap}, (k, v) ∈ VMap.insert m k v
  | [] => by simp [VMap.insert]
  | (k', v') :: t => by
    simp only [VMap.insert]
    cases hc : Value.cmp k k' with
    | lt => simp
    | eq => rw [(Value.cmp_eq _ _).mp hc]; simp
    | gt => exact List.mem_cons_of_mem _ vinsert_self

theorem vextend_left {p : Value × Value} : ∀ {l w : VMap}, p ∈ w → (∀ q ∈ l, q.1 = p.1 → q = p) → p ∈ VMap.extend w l
  | [], _, h, _ => h
  | q :: l, w, h, hq => by
    refine vextend_left (l := l) (w := VMap.insert w q.1 q.2) ?_ fun r hr => hq r (List.mem_cons_of_mem _ hr)
    by_cases e : q.1 = p.1
    · have := hq q List.mem_cons_self e
      subst this
      exact vinsert_self
    · exact vinsert_left h fun h => e h.symm

theorem mapKey_fits (hv : ∀ v n c, s.val v n c = .ok () → P v n c) (hq : ∀ l c, P l.toValue (.literal l) c) {k : Node} {c : Ctx} {w : WMap}
    {p : Value × Value} (h : validateMapKey env s k w c = .ok p) : P p.1 k c ∧ p ∈ w.map := by
  have search : ∀ {msg : String} {l : VMap}, mapSearchLoop (fun key => s.val key k c) msg l = .ok p →
      s.val p.1 k c = .ok () ∧ p ∈ l := by
    intro msg l
    induction l with
    | nil => intro h; cases h
    | cons q l ih =>
      obtain ⟨a, b⟩ := q
      intro h
      unfold mapSearchLoop at h
      cases hr : s.val a k c with
      | ok u =>
        simp only [hr] at h
        cases h
        exact ⟨hr, List.mem_cons_self⟩
      | err e =>
        simp only [hr] at h
        exact ⟨(ih h).1, List.mem_cons_of_mem _ (ih h).2⟩
      | panic => simp only [hr] at h; cases h
      | fuel => simp only [hr] at h; cases h
  unfold validateMapKey at h
  split at h
  · rename_i l
    unfold mapSearchLiteral at h
    cases hg : VMap.get w.map l.toValue with
    | none => rw [hg] at h; cases h
    | some v =>
      rw [hg] at h
      cases h
      exact ⟨hq l c, vget_mem hg⟩
  · obtain ⟨h1, h2⟩ := search h
    exact ⟨hv _ _ _ h1, h2⟩

theorem remove_leaves (hm : ∀ p ∈ m, ∀ q ∈ m, p.1 = q.1 → p = q) {w : WMap} (h : MLeft m M w) {p : Value × Value}
    (hp : p ∈ w.map) (hg : M p) : Leaves (MLeft m M) (w.remove p.1) := by
  unfold WMap.remove
  cases hr : VMap.remove w.map p.1 with
  | none => trivial
  | some q =>
    obtain ⟨v, m'⟩ := q
    obtain ⟨h1, h2⟩ := vremove_mem hr
    have e : (p.1, v) = p := hm _ (h.map _ h1) _ (h.map _ hp) rfl
    have left : ∀ q ∈ m, q ∈ m' ∨ M q := by
      intro q hq
      rcases h.left q hq with h' | h'
      · rcases vremove_left hr h' with rfl | h'
        · exact .inr (e ▸ hg)
        · exact .inl h'
      · exact .inr h'
    simp only
    cases hs : w.snaps with
    | nil => exact ⟨left, fun q hq => h.map _ (h2 q hq), by simp⟩
    | cons a as =>
      refine ⟨left, fun q hq => h.map _ (h2 q hq), ?_⟩
      intro b hb q hq
      rcases List.mem_cons.mp hb with rfl | hb
      · rcases List.mem_append.mp hq with hq | hq
        · exact h.snaps a (by simp [hs]) q hq
        · rw [List.mem_singleton.mp hq]
          exact h.map _ h1
      · exact h.snaps b (by simp [hs, hb]) q hq

theorem map_leaves (hm : ∀ p ∈ m, ∀ q ∈ m, p.1 = q.1 → p = q) (hq : ∀ l c, P l.toValue (.literal l) c)
    (hv : ∀ v n c, s.val v n c = .ok () → P v n c)
    (ha : ∀ {n c w}, GoodM env P M n c → MLeft m M w → Leaves (MLeft m M) (s.map n w c))
    (hc : ∀ {name as c w}, GoodM env P M (.choiceify name as) c → MLeft m M w → Leaves (MLeft m M) (s.mchf name as w c))
    {n : Node} {c : Ctx} {w : WMap} (hg : GoodM env P M n c) (h : MLeft m M w) : Leaves (MLeft m M) (mapBody env s n w c) := by
  cases n with
  | rule name as =>
    simp only [mapBody]
    cases hl : c.lookupRule env name as with
    | error e => exact h
    | ok a =>
      obtain ⟨m, c'⟩ := a
      exact ha (fun d k t x ht => hg d k t x (.rule hl ht)) h
  | unwrap name as =>
    simp only [mapBody]
    cases hl : c.lookupRule env name as with
    | error e => exact h
    | ok a =>
      obtain ⟨m, c'⟩ := a
      simp only [validateMapUnwrap]
      split
      · exact leaves_seq (fun m hm w hw => ha (fun d k t x ht => hg d k t x (.unwrap hl hm ht)) hw) h
      · exact h
  | choice l => exact leaves_choice (fun m hm w hw => ha (fun d k t x ht => hg d k t x (.choice hm ht)) hw) h
  | choiceifyInline l => exact leaves_choice (fun m hm w hw => ha (fun d k t x ht => hg d k t x (.inline hm ht)) hw) h
  | choiceify name as => exact hc hg h
  | group l =>
    simp only [mapBody, validateMapGroup]
    have hs : Leaves (MLeft m M) (seqLoopS (fun m w => s.map m w c) l w.snapshot) :=
      leaves_seq (fun m hm w hw => ha (fun d k t x ht => hg d k t x (.group hm ht)) hw) h.snapshot
    cases hr : seqLoopS (fun m w => s.map m w c) l w.snapshot with
    | ok w1 =>
      rw [hr] at hs
      simp only [WMap.commit]
      cases hq : w1.snaps with
      | nil => trivial
      | cons q qs => exact ⟨hs.left, hs.map, fun a ha => hs.snaps a (by simp [hq, ha])⟩
    | err e w1 =>
      rw [hr] at hs
      simp only [WMap.rewind]
      cases hq : w1.snaps with
      | nil => trivial
      | cons q qs =>
        have hin := hs.snaps q (by simp [hq])
        refine ⟨?_, ?_, fun a ha => hs.snaps a (by simp [hq, ha])⟩
        · intro x hx
          rcases hs.left x hx with h | h
          · exact .inl (vextend_left h fun r hr he => hm _ (hin r hr) _ hx he)
          · exact .inr h
        · intro x hx
          rcases vextend_mem hx with h | h
          · exact hin x h
          · exact hs.map x h
    | panic => trivial
    | fuel => trivial
  | keyValue k t x =>
    simp only [mapBody, validateMapKeyvalue]
    cases hk : validateMapKey env s k w c with
    | ok p =>
      obtain ⟨h1, h2⟩ := mapKey_fits hv hq hk
      obtain ⟨a, b⟩ := p
      simp only
      cases hr : s.val b t c with
      | ok u => exact remove_leaves hm h (p := (a, b)) h2 (hg _ _ _ (a, b) (.pair c k t x) h1 (hv _ _ _ hr))
      | err e => simp only; split <;> exact h
      | panic => trivial
      | fuel => trivial
    | err e => exact h
    | panic => trivial
    | fuel => trivial
  | occur o n => exact leaves_occur (fun w hw => ha (fun d k t x ht => hg d k t x (.occur ht)) hw) _ _ h
  | _ => exact h

theorem mchf_leaves
    (ha : ∀ {n c w}, GoodM env P M n c → MLeft m M w → Leaves (MLeft m M) (s.map n w c))
    (hc : ∀ {name as c w}, GoodM env P M (.choiceify name as) c → MLeft m M w → Leaves (MLeft m M) (s.mchf name as w c))
    {name : String} {as : List Node} {c : Ctx} {w : WMap} (hg : GoodM env P M (.choiceify name as) c) (h : MLeft m M w) :
    Leaves (MLeft m M) (mchfBody env s name as w c) := by
  unfold mchfBody
  cases hl : c.lookupRule env name as with
  | error e => exact h
  | ok a =>
    obtain ⟨g, c'⟩ := a
    simp only
    split
    · rename_i l
      refine leaves_choice (fun n hn w hw => ?_) h
      unfold mapChoiceifyItem
      split
      · rename_i k t x
        exact ha (fun d k' t' p ht => hg d k' t' p (.choiceify hl hn (by simp) (by simpa [Node.entryOf] using ht))) hw
      · exact hc (fun d k' t' p ht => hg d k' t' p (.choiceifyMember hl hn ht)) hw
      · rename_i h1 h2
        refine ha (fun d k' t' p ht => hg d k' t' p (.choiceify hl hn (fun s as e => h2 s as e) ?_)) hw
        have : n.entryOf = n := by
          cases n with
          | keyValue k t x => exact absurd rfl (h1 k t x)
          | _ => rfl
        rw [this]
        exact ht
    · exact hc (fun d k' t' p ht => hg d k' t' p (.choiceifyName hl ht)) h
    · exact h

theorem fns_map_leaves (hm : ∀ p ∈ m, ∀ q ∈ m, p.1 = q.1 → p = q) (hq : ∀ l c, P l.toValue (.literal l) c) : ∀ (k : Nat),
    (∀ j < k, ∀ v n c, (fns env j).val v n c = .ok () → P v n c) →
    (∀ {n : Node} {c : Ctx} {w : WMap}, GoodM env P M n c → MLeft m M w → Leaves (MLeft m M) ((fns env k).map n w c)) ∧
    (∀ {name : String} {as : List Node} {c : Ctx} {w : WMap}, GoodM env P M (.choiceify name as) c → MLeft m M w →
      Leaves (MLeft m M) ((fns env k).mchf name as w c))
  | 0, _ => ⟨fun _ _ => trivial, fun _ _ => trivial⟩
  | k + 1, hv => by
    obtain ⟨h1, h2⟩ := fns_map_leaves hm hq k fun j hj => hv j (Nat.lt_succ_of_lt hj)
    exact ⟨map_leaves hm hq (hv k (Nat.lt_succ_self k)) h1 h2, mchf_leaves h1 h2⟩

/-- Success with a budget is acceptance. -/
theorem fns_accepts (k : Nat) : ∀ j < k, ∀ v n c, (fns env j).val v n c = .ok () → Accepts env c n v :=
  fun _ _ _ _ _ hr => lim_val_of_fns hr (by simp)

theorem literal_itself (l : Literal) (c : Ctx) : Accepts env c (.literal l) l.toValue := by
  show (lim env).val _ _ _ = _
  rw [val_eq]
  simp only [valBody, validateLiteral, Value.beq, (Value.cmp_eq _ _).mpr rfl]
  rfl

end Cddl
