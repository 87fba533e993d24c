import Verif.Spec.Lively
import Verif.Model.Cost
import Verif.Proofs.Takes
import Verif.Proofs.Depth

/-! # Calls are bounded by a power where repetitions take something -/

namespace Cddl

/-! ## The data is no broader than it was -/

/-- Everything in the working array is at most this broad. -/
def WArr.Slim (b : Nat) (w : WArr) : Prop :=
  (∀ v ∈ w.array, v.breadth ≤ b) ∧ ∀ s ∈ w.snaps, ∀ v ∈ s, v.breadth ≤ b

/-- A pair is at most this broad. -/
def SlimPair (b : Nat) (p : Value × Value) : Prop := p.1.breadth ≤ b ∧ p.2.breadth ≤ b

/-- Everything in the working map is at most this broad. -/
def WMap.Slim (b : Nat) (w : WMap) : Prop :=
  (∀ p ∈ w.map, SlimPair b p) ∧ ∀ s ∈ w.snaps, ∀ p ∈ s, SlimPair b p

theorem breadth_mem : ∀ {l : List Value} {v : Value}, v ∈ l → v.breadth ≤ Value.breadths l
  | x :: xs, v, h => by
    simp only [Value.breadths]
    rcases List.mem_cons.mp h with rfl | h
    · exact Nat.le_max_left ..
    · exact Nat.le_trans (breadth_mem h) (Nat.le_max_right ..)

theorem breadth_pair : ∀ {l : List (Value × Value)} {p : Value × Value}, p ∈ l → SlimPair (Value.pairBreadths l) p
  | (k, v) :: t, p, h => by
    simp only [Value.pairBreadths]
    rcases List.mem_cons.mp h with rfl | h
    · exact ⟨Nat.le_trans (Nat.le_max_left ..) (Nat.le_max_left ..), Nat.le_trans (Nat.le_max_right ..) (Nat.le_max_left ..)⟩
    · exact ⟨Nat.le_trans (breadth_pair h).1 (Nat.le_max_right ..), Nat.le_trans (breadth_pair h).2 (Nat.le_max_right ..)⟩

theorem literal_breadth (l : Literal) : l.toValue.breadth = 0 := by
  cases l <;> rfl

section
variable {b : Nat}

theorem WArr.Slim.snapshot {w : WArr} (hw : w.Slim b) : w.snapshot.Slim b := by
  refine ⟨hw.1, fun s hs => ?_⟩
  rcases List.mem_cons.mp hs with rfl | hs
  · simp
  · exact hw.2 s hs

theorem WMap.Slim.snapshot {w : WMap} (hw : w.Slim b) : w.snapshot.Slim b := by
  refine ⟨hw.1, fun s hs => ?_⟩
  rcases List.mem_cons.mp hs with rfl | hs
  · simp
  · exact hw.2 s hs

theorem slim_popFront {w : WArr} (hw : w.Slim b) : w.popFront.Errs (fun _ => True) (WArr.Slim b) := by
  obtain ⟨a, s⟩ := w
  unfold WArr.popFront
  cases a with
  | nil => trivial
  | cons x xs =>
    cases s with
    | nil => exact ⟨fun v hv => hw.1 v (.tail _ hv), nofun⟩
    | cons s ss =>
      refine ⟨fun v hv => hw.1 v (.tail _ hv), fun t ht v hv => ?_⟩
      rcases List.mem_cons.mp ht with rfl | ht
      · rcases List.mem_append.mp hv with hv | hv
        · exact hw.2 s (.head _) v hv
        · rw [List.mem_singleton.mp hv]; exact hw.1 x (.head _)
      · exact hw.2 t (.tail _ ht) v hv

theorem slim_rewind {w : WArr} (hw : w.Slim b) : w.rewind.Errs (fun _ => True) (WArr.Slim b) := by
  obtain ⟨a, s⟩ := w
  unfold WArr.rewind
  cases s with
  | nil => trivial
  | cons s ss =>
    refine ⟨fun v hv => ?_, fun t ht => hw.2 t (.tail _ ht)⟩
    rcases List.mem_append.mp hv with hv | hv
    · exact hw.2 s (.head _) v hv
    · exact hw.1 v hv

theorem slim_commit {w : WArr} (hw : w.Slim b) : w.commit.Errs (fun _ => True) (WArr.Slim b) := by
  obtain ⟨a, s⟩ := w
  unfold WArr.commit
  cases s with
  | nil => trivial
  | cons s ss => exact ⟨hw.1, fun t ht => hw.2 t (.tail _ ht)⟩

theorem slim_insert {k v : Value} (hp : SlimPair b (k, v)) : ∀ {m : VMap}, (∀ p ∈ m, SlimPair b p) →
    ∀ p ∈ VMap.insert m k v, SlimPair b p
  | [], _, p, h => by
    simp only [VMap.insert, List.mem_singleton] at h
    subst h
    exact hp
  | (k', v') :: t, hm, p, h => by
    simp only [VMap.insert] at h
    split at h
    · rcases List.mem_cons.mp h with rfl | h
      · exact hp
      · exact hm p h
    · rcases List.mem_cons.mp h with rfl | h
      · exact ⟨(hm _ (.head _)).1, hp.2⟩
      · exact hm p (.tail _ h)
    · rcases List.mem_cons.mp h with rfl | h
      · exact hm _ (.head _)
      · exact slim_insert hp (fun q hq => hm q (.tail _ hq)) p h

theorem slim_extend : ∀ {l : List (Value × Value)} {m : VMap}, (∀ p ∈ m, SlimPair b p) → (∀ p ∈ l, SlimPair b p) →
    ∀ p ∈ VMap.extend m l, SlimPair b p
  | [], _, hm, _, p, h => hm p h
  | q :: l, m, hm, hl, p, h =>
    slim_extend (l := l) (m := VMap.insert m q.1 q.2) (slim_insert (hl q (.head _)) hm) (fun p hp => hl p (.tail _ hp)) p h

theorem slim_remove {w : WMap} {k : Value} (hw : w.Slim b) (hk : k.breadth ≤ b) :
    (w.remove k).Errs (fun _ => True) (WMap.Slim b) := by
  obtain ⟨a, s⟩ := w
  unfold WMap.remove
  dsimp only
  cases h : VMap.remove a k with
  | none => trivial
  | some p =>
    obtain ⟨v, m⟩ := p
    obtain ⟨⟨k', h1⟩, h2⟩ := VMap.remove_mem h
    cases s with
    | nil => exact ⟨fun p hp => hw.1 p (h2 p hp), nofun⟩
    | cons s ss =>
      refine ⟨fun p hp => hw.1 p (h2 p hp), fun t ht p hp => ?_⟩
      rcases List.mem_cons.mp ht with rfl | ht
      · rcases List.mem_append.mp hp with hp | hp
        · exact hw.2 s (.head _) p hp
        · rw [List.mem_singleton.mp hp]; exact ⟨hk, (hw.1 _ h1).2⟩
      · exact hw.2 t (.tail _ ht) p hp

theorem slim_mapRewind {w : WMap} (hw : w.Slim b) : w.rewind.Errs (fun _ => True) (WMap.Slim b) := by
  obtain ⟨a, s⟩ := w
  unfold WMap.rewind
  cases s with
  | nil => trivial
  | cons s ss => exact ⟨slim_extend hw.1 (hw.2 s (.head _)), fun t ht => hw.2 t (.tail _ ht)⟩

theorem slim_mapCommit {w : WMap} (hw : w.Slim b) : w.commit.Errs (fun _ => True) (WMap.Slim b) := by
  obtain ⟨a, s⟩ := w
  unfold WMap.commit
  cases s with
  | nil => trivial
  | cons s ss => exact ⟨hw.1, fun t ht => hw.2 t (.tail _ ht)⟩

/-- Functions that leave the data as broad as it was. -/
structure SlimRec (b : Nat) (r : Rec) : Prop where
  arr : ∀ n w c, w.Slim b → (r.arr n w c).Errs (fun _ => True) (WArr.Slim b)
  map : ∀ n w c, w.Slim b → (r.map n w c).Errs (fun _ => True) (WMap.Slim b)
  mchf : ∀ s as w c, w.Slim b → (r.mchf s as w c).Errs (fun _ => True) (WMap.Slim b)

section
variable {env : Env} {r : Rec} (h : SlimRec b r)

theorem slim_arrayValue (n : Node) {w : WArr} (c : Ctx) (hw : w.Slim b) :
    (validateArrayValue env r n w c).Errs (fun _ => True) (WArr.Slim b) := by
  unfold validateArrayValue
  split
  · split
    · exact slim_popFront hw
    · rename_i hne
      generalize r.val _ n c = q at hne
      cases q with
      | ok => exact (hne rfl).elim
      | err e => exact ⟨trivial, hw⟩
      | panic => trivial
      | fuel => trivial
  · exact ⟨trivial, hw⟩

/-- The key and the value that are found are no broader than the map. -/
theorem slim_mapKey {n : Node} {w : WMap} {c : Ctx} (hw : w.Slim b) {p : Value × Value}
    (hp : validateMapKey env r n w c = .ok p) : SlimPair b p := by
  unfold validateMapKey at hp
  split at hp
  · rename_i l
    unfold mapSearchLiteral at hp
    split at hp
    · rename_i v hv
      cases hp
      obtain ⟨k', hk⟩ := VMap.get_pair hv
      exact ⟨by rw [literal_breadth]; exact Nat.zero_le _, (hw.1 _ hk).2⟩
    · cases hp
  · have := mapSearchLoop_errs (E := fun _ => True) (f := fun key => r.val key n c)
      (msg := "map{" ++ n.display env.fmtF64 ++ "}") trivial w.map
    unfold mapSearch at hp
    rw [hp] at this
    exact hw.1 _ this

theorem slim_mapKeyvalue (k v : Node) (x : Bool) {w : WMap} (c : Ctx) (hw : w.Slim b) :
    (validateMapKeyvalue env r k v x w c).Errs (fun _ => True) (WMap.Slim b) := by
  unfold validateMapKeyvalue
  split
  · rename_i hp
    split
    · exact slim_remove hw (slim_mapKey hw hp).1
    · split <;> exact ⟨trivial, hw⟩
    · trivial
    · trivial
  · exact ⟨trivial, hw⟩
  · trivial
  · trivial

include h

theorem slim_arrBody (n : Node) (w : WArr) (c : Ctx) (hw : w.Slim b) : (arrBody env r n w c).Errs (fun _ => True) (WArr.Slim b) := by
  cases n with
  | occur o n => exact occurLoopS_errs trivial (fun w hw => h.arr n w c hw) _ _ _ hw
  | rule s as =>
    simp only [arrBody]
    cases c.lookupRule env s as with
    | ok a => exact h.arr _ _ _ hw
    | error e => exact ⟨trivial, hw⟩
  | unwrap s as =>
    simp only [arrBody]
    cases c.lookupRule env s as with
    | ok a =>
      dsimp only
      unfold validateArrayUnwrap
      split
      · exact seqLoopS_errs _ _ hw fun n _ w hw => h.arr n w _ hw
      · exact ⟨trivial, hw⟩
    | error e => exact ⟨trivial, hw⟩
  | choice l => exact choiceLoopS_errs trivial _ _ hw fun n _ w hw => h.arr n w _ hw
  | group l =>
    simp only [arrBody, validateArrayGroup]
    have := seqLoopS_errs (E := fun _ => True) l w.snapshot hw.snapshot fun n _ w hw => h.arr n w c hw
    cases hs : seqLoopS (fun m w => r.arr m w c) l w.snapshot with
    | ok w' => rw [hs] at this; exact slim_commit this
    | err e w' =>
      rw [hs] at this
      have := slim_rewind this.2
      dsimp only
      cases hw : w'.rewind with
      | ok => rw [hw] at this; exact ⟨trivial, this⟩
      | err => rw [hw] at this; exact this
      | panic => trivial
      | fuel => trivial
    | panic => trivial
    | fuel => trivial
  | _ => exact slim_arrayValue _ c hw

theorem slim_mapItem (n : Node) (w : WMap) (c : Ctx) (hw : w.Slim b) :
    (mapChoiceifyItem r c n w).Errs (fun _ => True) (WMap.Slim b) := by
  cases n with
  | rule s as => exact h.mchf _ _ _ _ hw
  | _ => exact h.map _ _ _ hw

theorem slim_mapBody (n : Node) (w : WMap) (c : Ctx) (hw : w.Slim b) : (mapBody env r n w c).Errs (fun _ => True) (WMap.Slim b) := by
  cases n with
  | occur o n => exact occurLoopS_errs trivial (fun w hw => h.map n w c hw) _ _ _ hw
  | keyValue k v x => exact slim_mapKeyvalue k v x c hw
  | rule s as =>
    simp only [mapBody]
    cases c.lookupRule env s as with
    | ok a => exact h.map _ _ _ hw
    | error e => exact ⟨trivial, hw⟩
  | unwrap s as =>
    simp only [mapBody]
    cases c.lookupRule env s as with
    | ok a =>
      dsimp only
      unfold validateMapUnwrap
      split
      · exact seqLoopS_errs _ _ hw fun n _ w hw => h.map n w _ hw
      · exact ⟨trivial, hw⟩
    | error e => exact ⟨trivial, hw⟩
  | choice l => exact choiceLoopS_errs trivial _ _ hw fun n _ w hw => h.map n w _ hw
  | choiceifyInline l => exact choiceLoopS_errs trivial _ _ hw fun n _ w hw => h.map n w _ hw
  | choiceify s as => exact h.mchf _ _ _ _ hw
  | group l =>
    simp only [mapBody, validateMapGroup]
    have := seqLoopS_errs (E := fun _ => True) l w.snapshot hw.snapshot fun n _ w hw => h.map n w c hw
    cases hs : seqLoopS (fun m w => r.map m w c) l w.snapshot with
    | ok w' => rw [hs] at this; exact slim_mapCommit this
    | err e w' =>
      rw [hs] at this
      have := slim_mapRewind this.2
      dsimp only
      cases hw : w'.rewind with
      | ok => rw [hw] at this; exact ⟨trivial, this⟩
      | err => rw [hw] at this; exact this
      | panic => trivial
      | fuel => trivial
    | panic => trivial
    | fuel => trivial
  | _ => exact ⟨trivial, hw⟩

theorem slim_mchfBody (s : String) (as : List Node) (w : WMap) (c : Ctx) (hw : w.Slim b) :
    (mchfBody env r s as w c).Errs (fun _ => True) (WMap.Slim b) := by
  unfold mchfBody
  cases c.lookupRule env s as with
  | ok a =>
    dsimp only
    split
    · exact choiceLoopS_errs trivial _ _ hw fun n _ w hw => slim_mapItem h n w _ hw
    · exact h.mchf _ _ _ _ hw
    · exact ⟨trivial, hw⟩
  | error e => exact ⟨trivial, hw⟩

end

theorem fns_slim (env : Env) (b : Nat) : ∀ k, SlimRec b (fns env k)
  | 0 => ⟨fun _ _ _ _ => trivial, fun _ _ _ _ => trivial, fun _ _ _ _ _ => trivial⟩
  | k + 1 => ⟨slim_arrBody (fns_slim env b k), slim_mapBody (fns_slim env b k), slim_mchfBody (fns_slim env b k)⟩

end

/-- At most so long, and all in it at most so broad. -/
def WArr.Trim (b : Nat) (w : WArr) : Prop := w.array.length ≤ b ∧ w.Slim b

/-- The same for maps. -/
def WMap.Trim (b : Nat) (w : WMap) : Prop := w.map.length ≤ b ∧ w.Slim b

theorem SRes.Errs.and {σ : Type} {I J : σ → Prop} {r : SRes σ} (h : r.Errs (fun _ => True) I) (h' : r.Errs (fun _ => True) J) :
    r.Errs (fun _ => True) fun w => I w ∧ J w := by
  cases r with
  | ok => exact ⟨h, h'⟩
  | err => exact ⟨trivial, h.2, h'.2⟩
  | _ => trivial

theorem SRes.Errs.imp {σ : Type} {E : Err → Prop} {I J : σ → Prop} {r : SRes σ} (h : r.Errs E I) (hi : ∀ w, I w → J w) :
    r.Errs E J := by
  cases r with
  | ok => exact hi _ h
  | err => exact ⟨h.1, hi _ h.2⟩
  | _ => trivial

theorem trim_arr (env : Env) {b k : Nat} {n : Node} {w : WArr} {c : Ctx} (hw : w.Trim b) :
    ((fns env k).arr n w c).Errs (fun _ => True) (WArr.Trim b) :=
  (((fns_shrink env k).arr n w c).imp fun _ h => Nat.le_trans h.le hw.1).and ((fns_slim env b k).arr n w c hw.2)

theorem trim_map (env : Env) {b k : Nat} {n : Node} {w : WMap} {c : Ctx} (hw : w.Trim b) :
    ((fns env k).map n w c).Errs (fun _ => True) (WMap.Trim b) :=
  (((fns_shrink env k).map n w c).imp fun _ h => Nat.le_trans h.le hw.1).and ((fns_slim env b k).map n w c hw.2)

theorem trim_item (env : Env) {b k : Nat} {n : Node} {w : WMap} {c : Ctx} (hw : w.Trim b) :
    (mapChoiceifyItem (fns env k) c n w).Errs (fun _ => True) (WMap.Trim b) :=
  ((mapItem_shrunk (fns_shrink env k) n w c).imp fun _ h => Nat.le_trans h.le hw.1).and
    (slim_mapItem (fns_slim env b k) n w c hw.2)

/-! ## Loops -/

section Loops
variable {σ : Type} {M : Nat}

theorem choiceN_le {f : Node → Res Unit} {g : Node → Nat} : ∀ {l : List Node}, (∀ n ∈ l, g n ≤ M) →
    choiceLoopN f g l ≤ l.length * M
  | [], _ => by simp [choiceLoopN]
  | n :: ns, h => by
    have h1 := h n (.head _)
    have h2 := choiceN_le (f := f) fun m hm => h m (.tail _ hm)
    simp only [choiceLoopN, List.length_cons, Nat.add_mul, Nat.one_mul]
    split
    · split <;> omega
    · omega

theorem choiceSN_le {I : σ → Prop} {f : Node → σ → SRes σ} {g : Node → σ → Nat} {stop : Err → Bool}
    (hf : ∀ n w, I w → (f n w).Errs (fun _ => True) I) : ∀ {l : List Node} {w : σ}, I w → (∀ n ∈ l, ∀ w, I w → g n w ≤ M) →
    choiceLoopSN f g stop l w ≤ l.length * M
  | [], _, _, _ => by simp [choiceLoopSN]
  | n :: ns, w, hw, h => by
    have h1 := h n (.head _) w hw
    have h0 := hf n w hw
    simp only [choiceLoopSN, List.length_cons, Nat.add_mul, Nat.one_mul]
    split
    · rename_i e w' he
      rw [he] at h0
      have h2 := choiceSN_le (stop := stop) hf h0.2 fun m hm => h m (.tail _ hm)
      split <;> omega
    · omega

theorem seqSN_le {I : σ → Prop} {f : Node → σ → SRes σ} {g : Node → σ → Nat}
    (hf : ∀ n w, I w → (f n w).Errs (fun _ => True) I) : ∀ {l : List Node} {w : σ}, I w → (∀ n ∈ l, ∀ w, I w → g n w ≤ M) →
    seqLoopSN f g l w ≤ l.length * M
  | [], _, _, _ => by simp [seqLoopSN]
  | n :: ns, w, hw, h => by
    have h1 := h n (.head _) w hw
    have h0 := hf n w hw
    simp only [seqLoopSN, List.length_cons, Nat.add_mul, Nat.one_mul]
    split
    · rename_i w' he
      rw [he] at h0
      have h2 := seqSN_le hf h0 fun m hm => h m (.tail _ hm)
      omega
    · omega

/-- A round more than there are things to take. -/
theorem occurSN_le {I : σ → Prop} {S : Sizes σ} {f : σ → SRes σ} {g : σ → Nat} {up : Nat}
    (hf : ∀ w, I w → (f w).Errs (fun _ => True) I) (ht : Takers S f) (hg : ∀ w, I w → g w ≤ M) :
    ∀ (k c : Nat) (w : σ), I w → occurLoopSN f g up k c w ≤ (S.size w + 1) * M
  | 0, _, _, _ => by simp [occurLoopSN]
  | k + 1, c, w, hw => by
    have h1 := hg w hw
    have h0 := hf w hw
    simp only [occurLoopSN, Nat.add_mul, Nat.one_mul]
    split
    · rename_i w' he
      rw [he] at h0
      have h2 := occurSN_le (up := up) hf ht hg k (c + 1) w' h0
      have h3 : (S.size w' + 1) * M ≤ S.size w * M := Nat.mul_le_mul_right M (ht _ _ he)
      split <;> omega
    · omega

/-- At most one round. -/
theorem occurSN_once {f : σ → SRes σ} {g : σ → Nat} {up : Nat} (hu : up ≤ 1) {w : σ} (hg : g w ≤ M) :
    ∀ k, occurLoopSN f g up k 0 w ≤ M
  | 0 => by simp [occurLoopSN]
  | k + 1 => by
    simp only [occurLoopSN]
    split
    · rw [if_pos (by omega)]; omega
    · omega

theorem searchN_le {f : Value → Res Unit} {g : Value → Nat} : ∀ {m : VMap}, (∀ p ∈ m, g p.1 ≤ M) →
    mapSearchLoopN f g m ≤ m.length * M
  | [], _ => by simp [mapSearchLoopN]
  | (k, v) :: t, h => by
    have h1 : g k ≤ M := h _ (.head _)
    have h2 := searchN_le (f := f) fun p hp => h p (.tail _ hp)
    simp only [mapSearchLoopN, List.length_cons, Nat.add_mul, Nat.one_mul]
    split <;> omega

end Loops

/-! ## Scopes -/

/-- The names known in a scope. -/
def Ctx.knows (K : String → Bool) : Ctx → String → Bool
  | .root _ => K
  | .frame g _ _ => fun s => (gmapFind g s).isSome || K s

/-- The arguments bound in the scope take something, and pass the test. -/
def Ctx.Lively (K : String → Bool) (S : Nat) : Ctx → Prop
  | .root _ => True
  | .frame g past _ => (∀ p ∈ g, p.2.size ≤ S ∧ p.2.takes (past.knows K) = true ∧ p.2.lively (past.knows K) = true) ∧
      past.Lively K S

theorem gmapFind_among : ∀ {g : List (String × Node)} {s : String} {n : Node}, gmapFind g s = some n → ∃ p ∈ g, p.2 = n
  | [], _, _, h => by simp [gmapFind] at h
  | (s', a) :: g, s, n, h => by
    simp only [gmapFind] at h
    split at h
    · rename_i hx
      cases h
      obtain ⟨p, hp, e⟩ := gmapFind_among hx
      exact ⟨p, .tail _ hp, e⟩
    · split at h
      · cases h; exact ⟨_, .head _, rfl⟩
      · cases h

theorem gmapFind_zip (s : String) : ∀ {ps : List String} {as : List Node}, ps.length = as.length →
    (gmapFind (ps.zip as) s).isSome = ps.contains s
  | [], _, _ => rfl
  | p :: ps, a :: as, h => by
    have ih := gmapFind_zip s (ps := ps) (as := as) (by simpa using h)
    simp only [List.zip_cons_cons, gmapFind, List.contains_cons]
    split
    · rename_i x hx
      rw [hx] at ih
      rw [← ih]
      simp
    · rename_i hx
      rw [hx] at ih
      by_cases he : p = s
      · simp [he]
      · have : (s == p) = false := by simpa using fun h => he h.symm
        rw [← ih, this]
        simp [he]

theorem takesAll_mem {K : String → Bool} : ∀ {l : List Node} {n : Node}, Node.takesAll K l = true → n ∈ l → n.takes K = true
  | m :: ms, n, h, hn => by
    simp only [Node.takesAll, Bool.and_eq_true] at h
    rcases List.mem_cons.mp hn with rfl | hn
    · exact h.1
    · exact takesAll_mem h.2 hn

theorem takesOne_mem {K : String → Bool} : ∀ {l : List Node}, Node.takesOne K l = true → ∃ n ∈ l, n.takes K = true
  | [], h => by simp [Node.takesOne] at h
  | m :: ms, h => by
    simp only [Node.takesOne, Bool.or_eq_true] at h
    rcases h with h | h
    · exact ⟨m, .head _, h⟩
    · obtain ⟨n, hn, h⟩ := takesOne_mem h
      exact ⟨n, .tail _ hn, h⟩

theorem livelyL_mem {K : String → Bool} : ∀ {l : List Node} {n : Node}, Node.livelyL K l = true → n ∈ l → n.lively K = true
  | m :: ms, n, h, hn => by
    simp only [Node.livelyL, Bool.and_eq_true] at h
    rcases List.mem_cons.mp hn with rfl | hn
    · exact h.1
    · exact livelyL_mem h.2 hn

theorem sizes_mem : ∀ {l : List Node} {n : Node}, n ∈ l → n.size ≤ Node.sizes l
  | m :: ms, n, hn => by
    simp only [Node.sizes]
    rcases List.mem_cons.mp hn with rfl | hn
    · omega
    · have := sizes_mem hn
      omega

theorem length_le_sizes : ∀ l : List Node, l.length ≤ Node.sizes l
  | [] => Nat.le_refl _
  | m :: ms => by
    have := length_le_sizes ms
    have h1 : 1 ≤ m.size := by cases m <;> simp only [Node.size] <;> omega
    simp only [List.length_cons, Node.sizes]
    omega

/-- The rules of the environment pass the test. -/
structure Env.Lively (env : Env) (K : String → Bool) (S : Nat) : Prop where
  size : ∀ s d, env.lookup s = .ok d → d.node.size ≤ S
  takes : ∀ s d, env.lookup s = .ok d → K s = true → d.node.takes (d.knows K) = true
  lively : ∀ s d, env.lookup s = .ok d → d.node.lively (d.knows K) = true

section
variable {env : Env} {K : String → Bool} {S : Nat} (hE : env.Lively K S)
include hE

/-- What is looked up passes the test in its scope. -/
theorem lookup_lively {c c' : Ctx} {s : String} {as : List Node} {n : Node} (hc : c.Lively K S) (hs : 2 + Node.sizes as ≤ S)
    (ht : Node.takesAll (c.knows K) as = true) (hl : Node.livelyL (c.knows K) as = true)
    (h : c.lookupRule env s as = .ok (n, c')) :
    c'.Lively K S ∧ n.size ≤ S ∧ n.lively (c'.knows K) = true ∧ (c.knows K s = true → n.takes (c'.knows K) = true) := by
  have key : ∀ rd : RuleDef, env.lookup s = .ok rd → n = rd.node → rd.params.length = as.length →
      c' = .frame (rd.params.zip as) c (c.depth + 1) →
      c'.Lively K S ∧ n.size ≤ S ∧ n.lively (c'.knows K) = true ∧ (K s = true → n.takes (c'.knows K) = true) := by
    rintro rd hr rfl hp rfl
    have hk : Ctx.knows K (.frame (rd.params.zip as) c (c.depth + 1)) = rd.knows K := by
      funext x
      simp only [Ctx.knows, RuleDef.knows, gmapFind_zip x hp]
    refine ⟨⟨fun p hp => ?_, hc⟩, hE.size _ _ hr, ?_, ?_⟩
    · have := (List.of_mem_zip hp).2
      exact ⟨by have := sizes_mem this; omega, takesAll_mem ht this, livelyL_mem hl this⟩
    · rw [hk]; exact hE.lively _ _ hr
    · rw [hk]; exact hE.takes _ _ hr
  cases c with
  | root d =>
    rcases lookupRule_cases h with ⟨g, d, h1, h2⟩ | ⟨rd, hr, h1, hp, _, h2⟩
    · cases h1
    · exact key rd hr h1 hp h2
  | frame g past d =>
    unfold Ctx.lookupRule at h
    dsimp only at h
    cases hg : gmapFind g s with
    | some m =>
      rw [hg] at h
      cases h
      obtain ⟨p, hp, rfl⟩ := gmapFind_among hg
      obtain ⟨h1, h2, h3⟩ := hc.1 p hp
      exact ⟨hc.2, h1, h3, fun _ => h2⟩
    | none =>
      have hx : Ctx.lookupRule env (.frame g past d) s as = .ok (n, c') := by
        unfold Ctx.lookupRule; dsimp only; rw [hg]; rw [hg] at h; exact h
      rcases lookupRule_cases hx with ⟨g', d', h1, h2⟩ | ⟨rd, hr, h1, hp, _, h2⟩
      · cases h1; rw [hg] at h2; cases h2
      · obtain ⟨a, b, e, f⟩ := key rd hr h1 hp h2
        refine ⟨a, b, e, fun hk => f ?_⟩
        simpa [Ctx.knows, hg] using hk

/-! ## What takes, takes -/

theorem lively_takes : ∀ (k : Nat) (n : Node) (c : Ctx), c.Lively K S → n.size ≤ S → n.takes (c.knows K) = true →
    n.lively (c.knows K) = true →
    (Takers arrSizes fun w => (fns env k).arr n w c) ∧ Takers mapSizes fun w => (fns env k).map n w c
  | 0, _, _, _, _, _, _ => ⟨fun _ _ h => (nomatch h), fun _ _ h => (nomatch h)⟩
  | k + 1, n, c, hc, hs, ht, hl => by
    have ih := lively_takes k
    have L := fns_shrink env k
    cases n with
    | rule s as =>
      simp only [Node.lively, Bool.and_eq_true] at hl
      simp only [Node.size] at hs
      simp only [Node.takes] at ht
      cases hx : c.lookupRule env s as with
      | ok a =>
        obtain ⟨n', c'⟩ := a
        obtain ⟨h1, h2, h3, h4⟩ := lookup_lively hE hc hs hl.1 hl.2 hx
        obtain ⟨i1, i2⟩ := ih n' c' h1 h2 (h4 ht) h3
        refine ⟨fun w w' h => i1 w w' ?_, fun w w' h => i2 w w' ?_⟩
        · change arrBody env (fns env k) (.rule s as) w c = _ at h
          simpa only [arrBody, hx] using h
        · change mapBody env (fns env k) (.rule s as) w c = _ at h
          simpa only [mapBody, hx] using h
      | error e =>
        refine ⟨fun w w' h => ?_, fun w w' h => ?_⟩
        · change arrBody env (fns env k) (.rule s as) w c = _ at h
          simp [arrBody, hx] at h
        · change mapBody env (fns env k) (.rule s as) w c = _ at h
          simp [mapBody, hx] at h
    | choice l =>
      simp only [Node.lively] at hl
      simp only [Node.size] at hs
      simp only [Node.takes] at ht
      have i : ∀ n ∈ l, _ := fun n hn => ih n c hc (by have := sizes_mem hn; omega) (takesAll_mem ht hn) (livelyL_mem hl hn)
      exact ⟨choice_takes (fun n w => L.arr n w c) l fun n hn => (i n hn).1,
        choice_takes (fun n w => L.map n w c) l fun n hn => (i n hn).2⟩
    | choiceifyInline l =>
      simp only [Node.lively] at hl
      simp only [Node.size] at hs
      simp only [Node.takes] at ht
      have i : ∀ n ∈ l, _ := fun n hn => ih n c hc (by have := sizes_mem hn; omega) (takesAll_mem ht hn) (livelyL_mem hl hn)
      exact ⟨fun w w' h => (arrayValue_shrunk _ w c).2 w' h,
        choice_takes (fun n w => L.map n w c) l fun n hn => (i n hn).2⟩
    | group l =>
      simp only [Node.lively] at hl
      simp only [Node.size] at hs
      simp only [Node.takes] at ht
      obtain ⟨n, hn, ht⟩ := takesOne_mem ht
      obtain ⟨i1, i2⟩ := ih n c hc (by have := sizes_mem hn; omega) ht (livelyL_mem hl hn)
      refine ⟨fun w w' h => ?_, fun w w' h => ?_⟩
      · change arrBody env (fns env k) (.group l) w c = _ at h
        simp only [arrBody, validateArrayGroup] at h
        split at h
        · rename_i w1 hs
          have := seq_takes (S := arrSizes) (fun n w => L.arr n w _) hn i1 w.snapshot w1 hs
          obtain ⟨a, s⟩ := w1
          unfold WArr.commit at h
          cases s with
          | nil => cases h
          | cons => cases h; exact this
        · split at h
          · cases h
          · rename_i hne; exact (hne _ h).elim
        · rename_i hne _; exact (hne _ h).elim
      · change mapBody env (fns env k) (.group l) w c = _ at h
        simp only [mapBody, validateMapGroup] at h
        split at h
        · rename_i w1 hs
          have := seq_takes (S := mapSizes) (fun n w => L.map n w _) hn i2 w.snapshot w1 hs
          obtain ⟨a, s⟩ := w1
          unfold WMap.commit at h
          cases s with
          | nil => cases h
          | cons => cases h; exact this
        · split at h
          · cases h
          · rename_i hne; exact (hne _ h).elim
        · rename_i hne _; exact (hne _ h).elim
    | occur o n =>
      simp only [Node.lively, Bool.and_eq_true] at hl
      simp only [Node.size] at hs
      simp only [Node.takes, Bool.and_eq_true, decide_eq_true_eq] at ht
      obtain ⟨i1, i2⟩ := ih n c hc (by omega) ht.2 hl.2
      exact ⟨fun w w' h => occur_takes (fun w => L.arr n w c) i1 ht.1 _ w w' h,
        fun w w' h => occur_takes (fun w => L.map n w c) i2 ht.1 _ w w' h⟩
    | unwrap | choiceify => simp [Node.takes] at ht
    | keyValue k v x => exact ⟨fun w w' h => (arrayValue_shrunk v w c).2 w' h, fun w w' h => (mapKeyvalue_shrunk k v x w c).2 w' h⟩
    | _ => exact ⟨fun w w' h => (arrayValue_shrunk _ w c).2 w' h, fun w w' h => (nomatch h)⟩

/-! ## Counting -/

omit hE in
theorem afterLookup_le {r : Except Err (Node × Ctx)} {g : Node → Ctx → Nat} {X : Nat} (h : ∀ n c, r = .ok (n, c) → g n c ≤ X) :
    afterLookup r g ≤ X := by
  cases r with
  | ok a => exact h a.1 a.2 rfl
  | error e => exact Nat.zero_le _

/-- Each call leads to at most `M` calls. -/
structure CallsLe (K : String → Bool) (S b M : Nat) (cost : Costs) : Prop where
  val : ∀ v n c, c.Lively K S → n.size ≤ S → n.lively (c.knows K) = true → v.breadth ≤ b → cost.val v n c ≤ M
  chf : ∀ s as v c, c.Lively K S → 2 + Node.sizes as ≤ S → Node.takesAll (c.knows K) as = true →
    Node.livelyL (c.knows K) as = true → v.breadth ≤ b → cost.chf s as v c ≤ M
  arr : ∀ n w c, c.Lively K S → n.size ≤ S → n.lively (c.knows K) = true → w.Trim b → cost.arr n w c ≤ M
  map : ∀ n w c, c.Lively K S → n.size ≤ S → n.lively (c.knows K) = true → w.Trim b → cost.map n w c ≤ M
  mchf : ∀ s as w c, c.Lively K S → 2 + Node.sizes as ≤ S → Node.takesAll (c.knows K) as = true →
    Node.livelyL (c.knows K) as = true → w.Trim b → cost.mchf s as w c ≤ M
  deref : ∀ n c, c.Lively K S → n.size ≤ S → n.lively (c.knows K) = true → cost.deref n c ≤ M
  chase : ∀ n c, c.Lively K S → n.size ≤ S → n.lively (c.knows K) = true → cost.chase n c ≤ M

section
variable {b M k : Nat} {cost : Costs} (h : CallsLe K S b M cost)
include h

theorem derefN_le {n : Node} {c : Ctx} (hc : c.Lively K S) (hs : n.size ≤ S) (hl : n.lively (c.knows K) = true) :
    derefN env cost n c ≤ 1 + M := by
  unfold derefN
  split
  · simp only [Node.lively, Bool.and_eq_true] at hl
    simp only [Node.size] at hs
    refine Nat.add_le_add_left (afterLookup_le fun n c' hx => ?_) 1
    obtain ⟨h1, h2, h3, _⟩ := lookup_lively hE hc hs hl.1 hl.2 hx
    exact h.deref _ _ h1 h2 h3
  · omega

theorem chaseN_le {n : Node} {c : Ctx} (hc : c.Lively K S) (hs : n.size ≤ S) (hl : n.lively (c.knows K) = true) :
    chaseN env cost n c ≤ 1 + M := by
  unfold chaseN
  split
  · simp only [Node.lively, Bool.and_eq_true] at hl
    simp only [Node.size] at hs
    refine Nat.add_le_add_left (afterLookup_le fun n c' hx => ?_) 1
    obtain ⟨h1, h2, h3, _⟩ := lookup_lively hE hc hs hl.1 hl.2 hx
    exact h.chase _ _ h1 h2 h3
  · omega

omit hE in
theorem itemN_le {v : Value} {n : Node} {c : Ctx} (hc : c.Lively K S) (hs : n.size ≤ S) (hl : n.lively (c.knows K) = true)
    (hv : v.breadth ≤ b) : choiceifyItemN cost v c n ≤ M := by
  cases n with
  | keyValue x y z =>
    simp only [Node.lively, Bool.and_eq_true] at hl
    simp only [Node.size] at hs
    exact h.val _ _ _ hc (by omega) hl.2 hv
  | rule s as =>
    simp only [Node.lively, Bool.and_eq_true] at hl
    exact h.chf _ _ _ _ hc hs hl.1 hl.2 hv
  | _ => exact h.val _ _ _ hc hs hl hv

omit hE in
theorem mapItemN_le {w : WMap} {n : Node} {c : Ctx} (hc : c.Lively K S) (hs : n.size ≤ S) (hl : n.lively (c.knows K) = true)
    (hw : w.Trim b) : mapChoiceifyItemN cost c n w ≤ M := by
  cases n with
  | keyValue x y z =>
    simp only [Node.lively, Bool.and_eq_true] at hl
    simp only [Node.size] at hs
    exact h.map _ _ _ hc (by omega) hl.2 hw
  | rule s as =>
    simp only [Node.lively, Bool.and_eq_true] at hl
    exact h.mchf _ _ _ _ hc hs hl.1 hl.2 hw
  | _ => exact h.map _ _ _ hc hs hl hw

omit hE h in
theorem len_le {l : List Node} (hs : 1 + Node.sizes l ≤ S) : l.length * M ≤ (S + b + 2) * M :=
  Nat.mul_le_mul_right M (by have := length_le_sizes l; omega)

omit hE h in
theorem once_le : M ≤ (S + b + 2) * M := Nat.le_mul_of_pos_left M (by omega)

omit hE h in
theorem twice_le : M + M ≤ (S + b + 2) * M := by
  have : 2 * M ≤ (S + b + 2) * M := Nat.mul_le_mul_right M (by omega)
  omega

omit hE in
theorem membersN_le {r : Rec} {l : List Node} {v : Value} {c : Ctx} (hc : c.Lively K S) (hs : 1 + Node.sizes l ≤ S)
    (hl : Node.livelyL (c.knows K) l = true) (hv : v.breadth ≤ b) : choiceifyMembersN r cost l v c ≤ (S + b + 2) * M :=
  Nat.le_trans (choiceN_le fun _ hn => itemN_le h hc (by have := sizes_mem hn; omega) (livelyL_mem hl hn) hv) (len_le hs)

omit hE in
theorem arraySeqN_le {l : List Node} {w : WArr} {c : Ctx} (hc : c.Lively K S) (hs : 1 + Node.sizes l ≤ S)
    (hl : Node.livelyL (c.knows K) l = true) (hw : w.Trim b) : arraySeqN (fns env k) cost l w c ≤ (S + b + 2) * M :=
  Nat.le_trans (seqSN_le (fun _ _ hw => trim_arr env hw) hw
    fun _ hn _ hw => h.arr _ _ _ hc (by have := sizes_mem hn; omega) (livelyL_mem hl hn) hw) (len_le hs)

omit hE in
theorem mapSeqN_le {l : List Node} {w : WMap} {c : Ctx} (hc : c.Lively K S) (hs : 1 + Node.sizes l ≤ S)
    (hl : Node.livelyL (c.knows K) l = true) (hw : w.Trim b) : mapSeqN (fns env k) cost l w c ≤ (S + b + 2) * M :=
  Nat.le_trans (seqSN_le (fun _ _ hw => trim_map env hw) hw
    fun _ hn _ hw => h.map _ _ _ hc (by have := sizes_mem hn; omega) (livelyL_mem hl hn) hw) (len_le hs)

omit hE in
theorem mapChoiceN_le {l : List Node} {w : WMap} {c : Ctx} (hc : c.Lively K S) (hs : 1 + Node.sizes l ≤ S)
    (hl : Node.livelyL (c.knows K) l = true) (hw : w.Trim b) : mapChoiceN (fns env k) cost l w c ≤ (S + b + 2) * M :=
  Nat.le_trans (choiceSN_le (fun _ _ hw => trim_map env hw) hw
    fun _ hn _ hw => h.map _ _ _ hc (by have := sizes_mem hn; omega) (livelyL_mem hl hn) hw) (len_le hs)

omit hE in
theorem arrayValueN_le {n : Node} {w : WArr} {c : Ctx} (hc : c.Lively K S) (hs : n.size ≤ S) (hl : n.lively (c.knows K) = true)
    (hw : w.Trim b) : arrayValueN cost n w c ≤ (S + b + 2) * M := by
  unfold arrayValueN
  split
  · rename_i v vs e
    exact Nat.le_trans (h.val _ _ _ hc hs hl (hw.2.1 v (by rw [e]; exact .head _))) once_le
  · exact Nat.zero_le _

theorem chfN_le {s : String} {as : List Node} {v : Value} {c : Ctx} (hc : c.Lively K S) (hs : 2 + Node.sizes as ≤ S)
    (ht : Node.takesAll (c.knows K) as = true) (hl : Node.livelyL (c.knows K) as = true) (hv : v.breadth ≤ b) :
    chfN env (fns env k) cost s as v c ≤ 1 + (S + b + 2) * M := by
  unfold chfN
  refine Nat.add_le_add_left (afterLookup_le fun n c' hx => ?_) 1
  obtain ⟨h1, h2, h3, _⟩ := lookup_lively hE hc hs ht hl hx
  split
  · exact membersN_le h h1 (by simpa only [Node.size] using h2) (by simpa only [Node.lively] using h3) hv
  · simp only [Node.lively, Bool.and_eq_true] at h3
    exact Nat.le_trans (h.chf _ _ _ _ h1 h2 h3.1 h3.2 hv) once_le
  · exact Nat.zero_le _

theorem mchfN_le {s : String} {as : List Node} {w : WMap} {c : Ctx} (hc : c.Lively K S) (hs : 2 + Node.sizes as ≤ S)
    (ht : Node.takesAll (c.knows K) as = true) (hl : Node.livelyL (c.knows K) as = true) (hw : w.Trim b) :
    mchfN env (fns env k) cost s as w c ≤ 1 + (S + b + 2) * M := by
  unfold mchfN
  refine Nat.add_le_add_left (afterLookup_le fun n c' hx => ?_) 1
  obtain ⟨h1, h2, h3, _⟩ := lookup_lively hE hc hs ht hl hx
  split
  · rename_i l
    simp only [Node.size] at h2
    simp only [Node.lively] at h3
    exact Nat.le_trans (choiceSN_le (fun _ _ hw => trim_item env hw) hw
      fun _ hn _ hw => mapItemN_le h h1 (by have := sizes_mem hn; omega) (livelyL_mem h3 hn) hw) (len_le h2)
  · simp only [Node.lively, Bool.and_eq_true] at h3
    exact Nat.le_trans (h.mchf _ _ _ _ h1 h2 h3.1 h3.2 hw) once_le
  · exact Nat.zero_le _

theorem arrN_le {n : Node} {w : WArr} {c : Ctx} (hc : c.Lively K S) (hs : n.size ≤ S) (hl : n.lively (c.knows K) = true)
    (hw : w.Trim b) : arrN env (fns env k) cost n w c ≤ 1 + (S + b + 2) * M := by
  unfold arrN
  refine Nat.add_le_add_left ?_ 1
  cases n with
  | occur o n =>
    simp only [Node.lively, Bool.and_eq_true, Bool.or_eq_true, decide_eq_true_eq] at hl
    simp only [Node.size] at hs
    have hn : ∀ w : WArr, w.Trim b → cost.arr n w c ≤ M := fun w hw => h.arr _ _ _ hc (by omega) hl.2 hw
    rcases hl.1 with hu | ht
    · exact Nat.le_trans (occurSN_once (g := fun w => cost.arr n w c) hu (hn w hw) _) once_le
    · refine Nat.le_trans (occurSN_le (S := arrSizes) (fun _ hw => trim_arr env hw)
        (lively_takes hE k n c hc (by omega) ht hl.2).1 hn _ 0 w hw) (Nat.mul_le_mul_right M ?_)
      have : w.array.length ≤ b := hw.1
      simp only [arrSizes]
      omega
  | keyValue x y z =>
    simp only [Node.lively, Bool.and_eq_true] at hl
    simp only [Node.size] at hs
    exact arrayValueN_le h hc (by omega) hl.2 hw
  | rule s as =>
    simp only [Node.lively, Bool.and_eq_true] at hl
    refine afterLookup_le fun n c' hx => ?_
    obtain ⟨h1, h2, h3, _⟩ := lookup_lively hE hc hs hl.1 hl.2 hx
    exact Nat.le_trans (h.arr _ _ _ h1 h2 h3 hw) once_le
  | unwrap s as =>
    simp only [Node.lively, Bool.and_eq_true] at hl
    refine afterLookup_le fun n c' hx => ?_
    obtain ⟨h1, h2, h3, _⟩ := lookup_lively hE hc hs hl.1 hl.2 hx
    split
    · exact arraySeqN_le h h1 h2 h3 hw
    · exact Nat.zero_le _
  | choice l =>
    refine Nat.le_trans (choiceSN_le (fun _ _ hw => trim_arr env hw) hw
      fun _ hn _ hw => h.arr _ _ _ hc ?_ (livelyL_mem hl hn) hw) (len_le hs)
    have := sizes_mem hn
    simp only [Node.size] at hs
    omega
  | group l => exact arraySeqN_le h hc hs hl ⟨hw.1, hw.2.snapshot⟩
  | _ => exact arrayValueN_le h hc hs hl hw

omit hE in
theorem mapKeyvalueN_le {x y : Node} {w : WMap} {c : Ctx} (hc : c.Lively K S) (hs : x.size ≤ S ∧ y.size ≤ S)
    (hl : x.lively (c.knows K) = true ∧ y.lively (c.knows K) = true) (hw : w.Trim b) :
    mapKeyvalueN env (fns env k) cost x y w c ≤ (S + b + 2) * M := by
  have h1 : mapKeyN (fns env k) cost x w c ≤ b * M := by
    unfold mapKeyN
    split
    · exact Nat.zero_le _
    · exact Nat.le_trans (searchN_le fun p hp => h.val _ _ _ hc hs.1 hl.1 (hw.2.1 p hp).1) (Nat.mul_le_mul_right M hw.1)
  have h3 : (b + 1) * M ≤ (S + b + 2) * M := Nat.mul_le_mul_right M (by omega)
  rw [Nat.add_mul, Nat.one_mul] at h3
  unfold mapKeyvalueN
  refine Nat.le_trans (Nat.add_le_add h1 ?_) h3
  split
  · rename_i kv hk
    exact h.val _ _ _ hc hs.2 hl.2 (slim_mapKey hw.2 hk).2
  · exact Nat.zero_le _

theorem mapN_le {n : Node} {w : WMap} {c : Ctx} (hc : c.Lively K S) (hs : n.size ≤ S) (hl : n.lively (c.knows K) = true)
    (hw : w.Trim b) : mapN env (fns env k) cost n w c ≤ 1 + (S + b + 2) * M := by
  unfold mapN
  refine Nat.add_le_add_left ?_ 1
  cases n with
  | occur o n =>
    simp only [Node.lively, Bool.and_eq_true, Bool.or_eq_true, decide_eq_true_eq] at hl
    simp only [Node.size] at hs
    have hn : ∀ w : WMap, w.Trim b → cost.map n w c ≤ M := fun w hw => h.map _ _ _ hc (by omega) hl.2 hw
    rcases hl.1 with hu | ht
    · exact Nat.le_trans (occurSN_once (g := fun w => cost.map n w c) hu (hn w hw) _) once_le
    · refine Nat.le_trans (occurSN_le (S := mapSizes) (fun _ hw => trim_map env hw)
        (lively_takes hE k n c hc (by omega) ht hl.2).2 hn _ 0 w hw) (Nat.mul_le_mul_right M ?_)
      have : w.map.length ≤ b := hw.1
      simp only [mapSizes]
      omega
  | keyValue x y z =>
    simp only [Node.lively, Bool.and_eq_true] at hl
    simp only [Node.size] at hs
    exact mapKeyvalueN_le h hc ⟨by omega, by omega⟩ hl hw
  | rule s as =>
    simp only [Node.lively, Bool.and_eq_true] at hl
    refine afterLookup_le fun n c' hx => ?_
    obtain ⟨h1, h2, h3, _⟩ := lookup_lively hE hc hs hl.1 hl.2 hx
    exact Nat.le_trans (h.map _ _ _ h1 h2 h3 hw) once_le
  | unwrap s as =>
    simp only [Node.lively, Bool.and_eq_true] at hl
    refine afterLookup_le fun n c' hx => ?_
    obtain ⟨h1, h2, h3, _⟩ := lookup_lively hE hc hs hl.1 hl.2 hx
    split
    · exact mapSeqN_le h h1 h2 h3 hw
    · exact Nat.zero_le _
  | choice l => exact mapChoiceN_le h hc hs hl hw
  | choiceifyInline l => exact mapChoiceN_le h hc hs hl hw
  | choiceify s as =>
    simp only [Node.lively, Bool.and_eq_true] at hl
    exact Nat.le_trans (h.mchf _ _ _ _ hc hs hl.1 hl.2 hw) once_le
  | group l => exact mapSeqN_le h hc hs hl ⟨hw.1, hw.2.snapshot⟩
  | _ => exact Nat.zero_le _

omit hE h in
theorem ite_le (q : Bool) (a : Nat) : (if q = true then a else 0) ≤ a := by split <;> omega

theorem valN_le {v : Value} {n : Node} {c : Ctx} (hc : c.Lively K S) (hs : n.size ≤ S) (hl : n.lively (c.knows K) = true)
    (hv : v.breadth ≤ b) : valN env (fns env k) cost v n c ≤ 1 + (S + b + 2) * M := by
  unfold valN
  refine Nat.add_le_add_left ?_ 1
  cases n with
  | choice l =>
    refine Nat.le_trans (choiceN_le fun _ hn => h.val _ _ _ hc ?_ (livelyL_mem hl hn) hv) (len_le hs)
    have := sizes_mem hn
    simp only [Node.size] at hs
    omega
  | map l =>
    dsimp only
    split
    · rename_i m
      simp only [Value.breadth] at hv
      exact mapSeqN_le h hc hs hl ⟨Nat.le_trans (Nat.le_max_left ..) hv,
        fun p hp => ⟨Nat.le_trans (breadth_pair hp).1 (Nat.le_trans (Nat.le_max_right ..) hv),
          Nat.le_trans (breadth_pair hp).2 (Nat.le_trans (Nat.le_max_right ..) hv)⟩, nofun⟩
    · exact Nat.zero_le _
  | array l =>
    dsimp only
    split
    · rename_i m
      simp only [Value.breadth] at hv
      exact arraySeqN_le h hc hs hl ⟨Nat.le_trans (Nat.le_max_left ..) hv,
        fun p hp => Nat.le_trans (breadth_mem hp) (Nat.le_trans (Nat.le_max_right ..) hv), nofun⟩
    · exact Nat.zero_le _
  | rule s as =>
    simp only [Node.lively, Bool.and_eq_true] at hl
    refine afterLookup_le fun n c' hx => ?_
    obtain ⟨h1, h2, h3, _⟩ := lookup_lively hE hc hs hl.1 hl.2 hx
    exact Nat.le_trans (h.val _ _ _ h1 h2 h3 hv) once_le
  | group l =>
    match l with
    | [] => exact Nat.zero_le _
    | [m] =>
      refine Nat.le_trans (h.val _ _ _ hc ?_ (livelyL_mem hl (.head _)) hv) once_le
      simp only [Node.size, Node.sizes] at hs
      omega
    | _ :: _ :: _ => exact Nat.zero_le _
  | range x y z =>
    simp only [Node.lively, Bool.and_eq_true] at hl
    simp only [Node.size] at hs
    have h1 := h.deref x c hc (by omega) hl.1
    have h2 := h.deref y c hc (by omega) hl.2
    have h3 := twice_le (S := S) (b := b) (M := M)
    refine Nat.le_trans (m := cost.deref x c + cost.deref y c) (Nat.add_le_add_left ?_ _) (by omega)
    split
    · exact Nat.le_refl _
    · exact Nat.zero_le _
  | ctl op x y =>
    simp only [Node.lively, Bool.and_eq_true] at hl
    simp only [Node.size] at hs
    have h1 := h.chase x c hc (by omega) hl.1
    have h2 := h.chase y c hc (by omega) hl.2
    have h3 := twice_le (S := S) (b := b) (M := M)
    have h4 : validateControlN env (fns env k) cost op x y c ≤ cost.chase y c + cost.chase x c := by
      unfold validateControlN
      refine Nat.add_le_add_left ?_ _
      split
      · exact ite_le _ _
      · exact Nat.zero_le _
    exact Nat.le_trans h4 (by omega)
  | ctlCbor => simp [Node.lively] at hl
  | choiceify s as =>
    simp only [Node.lively, Bool.and_eq_true] at hl
    exact Nat.le_trans (h.chf _ _ _ _ hc hs hl.1 hl.2 hv) once_le
  | choiceifyInline l => exact membersN_le h hc hs hl hv
  | _ => exact Nat.zero_le _

end

/-- Each level multiplies the calls by at most `S + b + 3`. -/
theorem calls_power (b : Nat) : ∀ k, CallsLe K S b ((S + b + 3) ^ k) (costs env k)
  | 0 => by
    constructor <;> intros <;> exact Nat.zero_le _
  | k + 1 => by
    have h := calls_power b k
    have hp : 1 ≤ (S + b + 3) ^ k := Nat.pow_pos (by omega)
    rw [Nat.pow_succ]
    generalize (S + b + 3) ^ k = M at h hp
    have hb : 1 + (S + b + 2) * M ≤ M * (S + b + 3) := by
      have e : M * (S + b + 3) = (S + b + 2) * M + M := by
        rw [Nat.mul_comm]
        exact Nat.succ_mul (S + b + 2) M
      omega
    have h1 : 1 + M ≤ M * (S + b + 3) := Nat.le_trans (Nat.add_le_add_left once_le 1) hb
    exact {
      val := fun _ _ _ h1 h2 h3 h4 => Nat.le_trans (valN_le hE h h1 h2 h3 h4) hb
      chf := fun _ _ _ _ h1 h2 h3 h4 h5 => Nat.le_trans (chfN_le hE h h1 h2 h3 h4 h5) hb
      arr := fun _ _ _ h1 h2 h3 h4 => Nat.le_trans (arrN_le hE h h1 h2 h3 h4) hb
      map := fun _ _ _ h1 h2 h3 h4 => Nat.le_trans (mapN_le hE h h1 h2 h3 h4) hb
      mchf := fun _ _ _ _ h1 h2 h3 h4 h5 => Nat.le_trans (mchfN_le hE h h1 h2 h3 h4 h5) hb
      deref := fun _ _ a1 a2 a3 => Nat.le_trans (derefN_le hE h a1 a2 a3) h1
      chase := fun _ _ a1 a2 a3 => Nat.le_trans (chaseN_le hE h a1 a2 a3) h1 }

end

end Cddl
