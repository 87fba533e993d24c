import Verif.Spec.Takes
import Verif.Proofs.Tidy
import Verif.Proofs.Single

/-! # What entries take, they do not give back -/

namespace Cddl

/-- The sizes of a working copy and of its snapshots. -/
structure Sizes (σ : Type) where
  size : σ → Nat
  tops : σ → List Nat

def arrSizes : Sizes WArr := ⟨fun w => w.array.length, fun w => w.snaps.map List.length⟩
def mapSizes : Sizes WMap := ⟨fun w => w.map.length, fun w => w.snaps.map List.length⟩

variable {σ : Type} {S : Sizes σ}

/-- `w'` is `w` after taking things: no more is left, and what is left and what can be given back together are no more, either. -/
structure Shrinks (S : Sizes σ) (w w' : σ) : Prop where
  le : S.size w' ≤ S.size w
  none : S.tops w = [] → S.tops w' = []
  some : ∀ t ts, S.tops w = t :: ts → ∃ t', S.tops w' = t' :: ts ∧ t' + S.size w' ≤ t + S.size w

theorem Shrinks.refl (w : σ) : Shrinks S w w := ⟨Nat.le_refl _, id, fun t _ h => ⟨t, h, Nat.le_refl _⟩⟩

theorem Shrinks.trans {w w' w'' : σ} (h : Shrinks S w w') (h' : Shrinks S w' w'') : Shrinks S w w'' where
  le := Nat.le_trans h'.le h.le
  none e := h'.none (h.none e)
  some t ts e := by
    obtain ⟨t1, e1, l1⟩ := h.some t ts e
    obtain ⟨t2, e2, l2⟩ := h'.some t1 ts e1
    exact ⟨t2, e2, by omega⟩

/-- The result is what is left of `w`. -/
abbrev SRes.Shrunk (S : Sizes σ) (w : σ) (r : SRes σ) : Prop := r.Errs (fun _ => True) (Shrinks S w)

theorem SRes.Shrunk.from {w w' : σ} {r : SRes σ} (h : Shrinks S w w') (hr : r.Shrunk S w') : r.Shrunk S w := by
  cases r with
  | ok => exact h.trans hr
  | err => exact ⟨trivial, h.trans hr.2⟩
  | _ => trivial

theorem choice_shrunk {f : Node → σ → SRes σ} {stop : Err → Bool} {msg : String} (hf : ∀ n w, (f n w).Shrunk S w) (l : List Node) (w : σ) :
    (choiceLoopS f stop msg l w).Shrunk S w :=
  choiceLoopS_errs trivial l w (.refl w) fun n _ _ hw => (hf n _).from hw

theorem seq_shrunk {f : Node → σ → SRes σ} (hf : ∀ n w, (f n w).Shrunk S w) (l : List Node) (w : σ) : (seqLoopS f l w).Shrunk S w :=
  seqLoopS_errs l w (.refl w) fun n _ _ hw => (hf n _).from hw

theorem occur_shrunk {f : σ → SRes σ} {lo up : Nat} {msg : String} (hf : ∀ w, (f w).Shrunk S w) (k c : Nat) (w : σ) :
    (occurLoopS f lo up msg k c w).Shrunk S w :=
  occurLoopS_errs trivial (fun _ hw => (hf _).from hw) k c w (.refl w)

theorem popFront_shrunk (w : WArr) : w.popFront.Shrunk arrSizes w ∧ ∀ w', w.popFront = .ok w' → w'.array.length < w.array.length := by
  obtain ⟨a, s⟩ := w
  unfold WArr.popFront
  cases a with
  | nil => exact ⟨trivial, nofun⟩
  | cons x xs =>
    cases s with
    | nil => exact ⟨⟨by simp [arrSizes], by simp [arrSizes], by simp [arrSizes]⟩, by rintro _ ⟨⟩; simp⟩
    | cons s ss =>
      refine ⟨⟨by simp [arrSizes], by simp [arrSizes], ?_⟩, by rintro _ ⟨⟩; simp⟩
      simp only [arrSizes, List.map_cons, List.cons.injEq]
      rintro _ _ ⟨rfl, rfl⟩
      exact ⟨_, ⟨rfl, rfl⟩, by simp; omega⟩

theorem VMap.remove_length : ∀ {m m' : VMap} {k v : Value}, VMap.remove m k = some (v, m') → m'.length + 1 = m.length
  | [], _, _, _, h => by simp [VMap.remove] at h
  | (k', v') :: t, m', k, v, h => by
    simp only [VMap.remove] at h
    split at h
    · cases h
    · cases h; rfl
    · cases hr : VMap.remove t k with
      | none => rw [hr] at h; cases h
      | some p =>
        obtain ⟨x, y⟩ := p
        rw [hr] at h
        cases h
        simp [remove_length hr]

theorem VMap.insert_length : ∀ (m : VMap) (k v : Value), (VMap.insert m k v).length ≤ m.length + 1
  | [], _, _ => by simp [VMap.insert]
  | (k', v') :: t, k, v => by
    simp only [VMap.insert]
    split
    · simp
    · simp
    · have := insert_length t k v
      simp; omega

theorem VMap.extend_length : ∀ (l : List (Value × Value)) (m : VMap), (VMap.extend m l).length ≤ m.length + l.length
  | [], _ => by simp [VMap.extend]
  | p :: l, m => by
    have h1 := VMap.insert_length m p.1 p.2
    have h2 := extend_length l (VMap.insert m p.1 p.2)
    simp only [VMap.extend, List.foldl_cons, List.length_cons] at h2 ⊢
    omega

theorem remove_shrunk (w : WMap) (k : Value) : (w.remove k).Shrunk mapSizes w ∧ ∀ w', w.remove k = .ok w' → w'.map.length < w.map.length := by
  obtain ⟨a, s⟩ := w
  unfold WMap.remove
  dsimp only
  cases h : VMap.remove a k with
  | none => exact ⟨trivial, nofun⟩
  | some p =>
    obtain ⟨v, m⟩ := p
    have hl := VMap.remove_length h
    cases s with
    | nil => exact ⟨⟨by simp [mapSizes]; omega, by simp [mapSizes], by simp [mapSizes]⟩, by rintro _ ⟨⟩; simp; omega⟩
    | cons s ss =>
      refine ⟨⟨by simp [mapSizes]; omega, by simp [mapSizes], ?_⟩, by rintro _ ⟨⟩; simp; omega⟩
      simp only [mapSizes, List.map_cons, List.cons.injEq]
      rintro _ _ ⟨rfl, rfl⟩
      exact ⟨_, ⟨rfl, rfl⟩, by simp; omega⟩

/-- Giving back, or keeping, what was taken since the snapshot. -/
theorem arr_rewind {w w' : WArr} (h : Shrinks arrSizes w.snapshot w') : w'.rewind.Shrunk arrSizes w := by
  obtain ⟨a, s⟩ := w'
  obtain ⟨t', e, l⟩ := h.some 0 (w.snaps.map List.length) rfl
  have hle := h.le
  cases s with
  | nil => cases e
  | cons s ss =>
    simp only [arrSizes, List.map_cons, List.cons.injEq] at e
    obtain ⟨rfl, e⟩ := e
    simp only [arrSizes, WArr.snapshot] at l
    refine ⟨by simp only [arrSizes, List.length_append]; omega, fun h => ?_, fun t ts h => ?_⟩
    · simp only [arrSizes] at h ⊢; rw [e]; exact h
    · simp only [arrSizes] at h ⊢; rw [e]; exact ⟨t, h, by simp only [List.length_append]; omega⟩

theorem arr_commit {w w' : WArr} (h : Shrinks arrSizes w.snapshot w') : w'.commit.Shrunk arrSizes w := by
  obtain ⟨a, s⟩ := w'
  obtain ⟨t', e, l⟩ := h.some 0 (w.snaps.map List.length) rfl
  have hle := h.le
  cases s with
  | nil => cases e
  | cons s ss =>
    simp only [arrSizes, List.map_cons, List.cons.injEq] at e
    obtain ⟨rfl, e⟩ := e
    simp only [arrSizes, WArr.snapshot] at hle
    refine ⟨hle, fun h => ?_, fun t ts h => ?_⟩
    · simp only [arrSizes] at h ⊢; rw [e]; exact h
    · simp only [arrSizes] at h ⊢; rw [e]; exact ⟨t, h, by omega⟩

theorem map_rewind {w w' : WMap} (h : Shrinks mapSizes w.snapshot w') : w'.rewind.Shrunk mapSizes w := by
  obtain ⟨a, s⟩ := w'
  obtain ⟨t', e, l⟩ := h.some 0 (w.snaps.map List.length) rfl
  have hle := h.le
  cases s with
  | nil => cases e
  | cons s ss =>
    simp only [mapSizes, List.map_cons, List.cons.injEq] at e
    obtain ⟨rfl, e⟩ := e
    simp only [mapSizes, WMap.snapshot] at l
    have hx := VMap.extend_length s a
    refine ⟨by simp only [mapSizes]; omega, fun h => ?_, fun t ts h => ?_⟩
    · simp only [mapSizes] at h ⊢; rw [e]; exact h
    · simp only [mapSizes] at h ⊢; rw [e]; exact ⟨t, h, by omega⟩

theorem map_commit {w w' : WMap} (h : Shrinks mapSizes w.snapshot w') : w'.commit.Shrunk mapSizes w := by
  obtain ⟨a, s⟩ := w'
  obtain ⟨t', e, l⟩ := h.some 0 (w.snaps.map List.length) rfl
  have hle := h.le
  cases s with
  | nil => cases e
  | cons s ss =>
    simp only [mapSizes, List.map_cons, List.cons.injEq] at e
    obtain ⟨rfl, e⟩ := e
    simp only [mapSizes, WMap.snapshot] at hle
    refine ⟨hle, fun h => ?_, fun t ts h => ?_⟩
    · simp only [mapSizes] at h ⊢; rw [e]; exact h
    · simp only [mapSizes] at h ⊢; rw [e]; exact ⟨t, h, by omega⟩

/-- Functions that only take. -/
structure ShrinkRec (r : Rec) : Prop where
  arr : ∀ n w c, (r.arr n w c).Shrunk arrSizes w
  map : ∀ n w c, (r.map n w c).Shrunk mapSizes w
  mchf : ∀ s as w c, (r.mchf s as w c).Shrunk mapSizes w

section
variable {env : Env} {r : Rec} (h : ShrinkRec r)

theorem arrayValue_shrunk (n : Node) (w : WArr) (c : Ctx) :
    (validateArrayValue env r n w c).Shrunk arrSizes w ∧ ∀ w', validateArrayValue env r n w c = .ok w' → w'.array.length < w.array.length := by
  unfold validateArrayValue
  split
  · split
    · exact popFront_shrunk w
    · rename_i hne
      generalize r.val _ n c = q at hne
      cases q with
      | ok => exact (hne rfl).elim
      | err e => exact ⟨⟨trivial, .refl w⟩, nofun⟩
      | panic => exact ⟨trivial, nofun⟩
      | fuel => exact ⟨trivial, nofun⟩
  · exact ⟨⟨trivial, .refl w⟩, nofun⟩

include h

theorem arrBody_shrunk (n : Node) (w : WArr) (c : Ctx) : (arrBody env r n w c).Shrunk arrSizes w := by
  cases n with
  | occur o n => exact occur_shrunk (fun w => h.arr n w c) _ _ _
  | rule s as =>
    simp only [arrBody]
    cases c.lookupRule env s as with
    | ok a => exact h.arr _ _ _
    | error e => exact ⟨trivial, .refl w⟩
  | unwrap s as =>
    simp only [arrBody]
    cases c.lookupRule env s as with
    | ok a =>
      dsimp only
      unfold validateArrayUnwrap
      split
      · exact seq_shrunk (fun n w => h.arr n w _) _ _
      · exact ⟨trivial, .refl w⟩
    | error e => exact ⟨trivial, .refl w⟩
  | choice l => exact choice_shrunk (fun n w => h.arr n w _) _ _
  | group l =>
    simp only [arrBody, validateArrayGroup]
    have := seq_shrunk (S := arrSizes) (fun n w => h.arr n w c) l w.snapshot
    cases hs : seqLoopS (fun m w => r.arr m w c) l w.snapshot with
    | ok w' => rw [hs] at this; exact arr_commit this
    | err e w' =>
      rw [hs] at this
      have := arr_rewind this.2
      dsimp only
      cases hw : w'.rewind with
      | ok => rw [hw] at this; exact ⟨trivial, this⟩
      | err => rw [hw] at this; exact this
      | panic => trivial
      | fuel => trivial
    | panic => trivial
    | fuel => trivial
  | _ => exact (arrayValue_shrunk _ w c).1

omit h in
theorem mapKeyvalue_shrunk (k v : Node) (x : Bool) (w : WMap) (c : Ctx) :
    (validateMapKeyvalue env r k v x w c).Shrunk mapSizes w ∧
      ∀ w', validateMapKeyvalue env r k v x w c = .ok w' → w'.map.length < w.map.length := by
  unfold validateMapKeyvalue
  split
  · split
    · exact remove_shrunk w _
    · split <;> exact ⟨⟨trivial, .refl w⟩, nofun⟩
    · exact ⟨trivial, nofun⟩
    · exact ⟨trivial, nofun⟩
  · exact ⟨⟨trivial, .refl w⟩, nofun⟩
  · exact ⟨trivial, nofun⟩
  · exact ⟨trivial, nofun⟩

theorem mapItem_shrunk (n : Node) (w : WMap) (c : Ctx) : (mapChoiceifyItem r c n w).Shrunk mapSizes w := by
  cases n with
  | rule s as => exact h.mchf _ _ _ _
  | _ => exact h.map _ _ _

theorem mapBody_shrunk (n : Node) (w : WMap) (c : Ctx) : (mapBody env r n w c).Shrunk mapSizes w := by
  cases n with
  | occur o n => exact occur_shrunk (fun w => h.map n w c) _ _ _
  | keyValue k v x => exact (mapKeyvalue_shrunk k v x w c).1
  | rule s as =>
    simp only [mapBody]
    cases c.lookupRule env s as with
    | ok a => exact h.map _ _ _
    | error e => exact ⟨trivial, .refl w⟩
  | unwrap s as =>
    simp only [mapBody]
    cases c.lookupRule env s as with
    | ok a =>
      dsimp only
      unfold validateMapUnwrap
      split
      · exact seq_shrunk (fun n w => h.map n w _) _ _
      · exact ⟨trivial, .refl w⟩
    | error e => exact ⟨trivial, .refl w⟩
  | choice l => exact choice_shrunk (fun n w => h.map n w _) _ _
  | choiceifyInline l => exact choice_shrunk (fun n w => h.map n w _) _ _
  | choiceify s as => exact h.mchf _ _ _ _
  | group l =>
    simp only [mapBody, validateMapGroup]
    have := seq_shrunk (S := mapSizes) (fun n w => h.map n w c) l w.snapshot
    cases hs : seqLoopS (fun m w => r.map m w c) l w.snapshot with
    | ok w' => rw [hs] at this; exact map_commit this
    | err e w' =>
      rw [hs] at this
      have := map_rewind this.2
      dsimp only
      cases hw : w'.rewind with
      | ok => rw [hw] at this; exact ⟨trivial, this⟩
      | err => rw [hw] at this; exact this
      | panic => trivial
      | fuel => trivial
    | panic => trivial
    | fuel => trivial
  | _ => exact ⟨trivial, .refl w⟩

theorem mchfBody_shrunk (s : String) (as : List Node) (w : WMap) (c : Ctx) : (mchfBody env r s as w c).Shrunk mapSizes w := by
  unfold mchfBody
  cases c.lookupRule env s as with
  | ok a =>
    dsimp only
    split
    · exact choice_shrunk (fun n w => mapItem_shrunk h n w _) _ _
    · exact h.mchf _ _ _ _
    · exact ⟨trivial, .refl w⟩
  | error e => exact ⟨trivial, .refl w⟩

end

theorem fns_shrink (env : Env) : ∀ k, ShrinkRec (fns env k)
  | 0 => ⟨fun _ _ _ => trivial, fun _ _ _ => trivial, fun _ _ _ _ => trivial⟩
  | k + 1 => ⟨arrBody_shrunk (fns_shrink env k), mapBody_shrunk (fns_shrink env k), mchfBody_shrunk (fns_shrink env k)⟩

theorem lim_shrink (env : Env) : ShrinkRec (lim env) where
  arr n w c := by
    obtain ⟨N, hN⟩ := (lim_ev env).arr n w c
    rw [← hN N (Nat.le_refl _)]; exact (fns_shrink env N).arr n w c
  map n w c := by
    obtain ⟨N, hN⟩ := (lim_ev env).map n w c
    rw [← hN N (Nat.le_refl _)]; exact (fns_shrink env N).map n w c
  mchf s as w c := by
    obtain ⟨N, hN⟩ := (lim_ev env).mchf s as w c
    rw [← hN N (Nat.le_refl _)]; exact (fns_shrink env N).mchf s as w c

/-! ## Taking at least one -/

/-- Success means that something was taken. -/
def Takers (S : Sizes σ) (f : σ → SRes σ) : Prop := ∀ w w', f w = .ok w' → S.size w' < S.size w

theorem choice_takes {f : Node → σ → SRes σ} {stop : Err → Bool} {msg : String} (hf : ∀ n w, (f n w).Shrunk S w) :
    ∀ l : List Node, (∀ n ∈ l, Takers S (f n)) → Takers S (choiceLoopS f stop msg l)
  | [], _, w, w', h => by simp [choiceLoopS] at h
  | n :: ns, ht, w, w', h => by
    simp only [choiceLoopS] at h
    have hs := hf n w
    cases hn : f n w with
    | ok w1 => rw [hn] at h; cases h; exact ht n (.head _) _ _ hn
    | err e w1 =>
      rw [hn] at h hs
      dsimp only at h
      split at h
      · cases h
      · exact Nat.lt_of_lt_of_le (choice_takes hf ns (fun m hm => ht m (.tail _ hm)) w1 w' h) hs.2.le
    | panic => rw [hn] at h; cases h
    | fuel => rw [hn] at h; cases h

theorem seq_takes {f : Node → σ → SRes σ} (hf : ∀ n w, (f n w).Shrunk S w) :
    ∀ {l : List Node} {n : Node}, n ∈ l → Takers S (f n) → Takers S (seqLoopS f l)
  | m :: ms, n, hm, ht, w, w', h => by
    simp only [seqLoopS] at h
    have hs := hf m w
    cases hn : f m w with
    | ok w1 =>
      rw [hn] at h hs
      dsimp only at h
      cases hm with
      | head =>
        have := seq_shrunk hf ms w1
        rw [h] at this
        exact Nat.lt_of_le_of_lt this.le (ht _ _ hn)
      | tail _ hm => exact Nat.lt_of_lt_of_le (seq_takes hf hm ht w1 w' h) hs.le
    | err e w1 => rw [hn] at h; cases h
    | panic => rw [hn] at h; cases h
    | fuel => rw [hn] at h; cases h

theorem occur_takes {f : σ → SRes σ} {lo up : Nat} {msg : String} (hf : ∀ w, (f w).Shrunk S w) (ht : Takers S f) (hlo : 0 < lo) :
    ∀ k, Takers S (occurLoopS f lo up msg k 0)
  | 0, _, _, h => by simp [occurLoopS] at h
  | k + 1, w, w', h => by
    simp only [occurLoopS] at h
    cases hn : f w with
    | ok w1 =>
      rw [hn] at h
      have h1 := ht _ _ hn
      dsimp only at h
      split at h
      · split at h
        · cases h
        · cases h; exact h1
      · have := occur_shrunk (lo := lo) (up := up) (msg := msg) hf k 1 w1
        rw [show (0 : Nat) + 1 = 1 from rfl] at h
        rw [h] at this
        exact Nat.lt_of_le_of_lt this.le h1
    | err e w1 =>
      rw [hn] at h
      dsimp only at h
      split at h
      · cases h
      · cases h
    | panic => rw [hn] at h; cases h
    | fuel => rw [hn] at h; cases h

theorem takesElement {env : Env} {c : Ctx} {n : Node} (h : TakesElement env c n) : Takers arrSizes fun w => (lim env).arr n w c := by
  have L := lim_shrink env
  induction h with
  | element c hn =>
    rename_i n
    intro w w' h
    dsimp only at h
    rw [arr_eq] at h
    cases n with
    | occur | rule | unwrap | choice | group => cases hn
    | keyValue k v x => exact (arrayValue_shrunk v w c).2 w' h
    | _ => exact (arrayValue_shrunk _ w c).2 w' h
  | rule hl _ ih =>
    intro w w' h
    dsimp only at h
    rw [arr_eq] at h
    simp only [arrBody, hl] at h
    exact ih w w' h
  | unwrap hl hm _ ih =>
    intro w w' h
    dsimp only at h
    rw [arr_eq] at h
    simp only [arrBody, hl, validateArrayUnwrap] at h
    exact seq_takes (fun n w => L.arr n w _) hm ih w w' h
  | choice _ ih =>
    intro w w' h
    dsimp only at h
    rw [arr_eq] at h
    exact choice_takes (fun n w => L.arr n w _) _ ih w w' h
  | group hm _ ih =>
    rename_i c l n _
    intro w w' h
    dsimp only at h
    rw [arr_eq] at h
    simp only [arrBody, validateArrayGroup] at h
    split at h
    · rename_i w1 hs
      have := seq_takes (S := arrSizes) (fun n w => L.arr n w _) hm ih w.snapshot w1 hs
      obtain ⟨a, s⟩ := w1
      unfold WArr.commit at h
      cases s with
      | nil => cases h
      | cons => cases h; exact this
    · split at h
      · cases h
      · rename_i hne; exact (hne _ h).elim
    · rename_i hne _; exact (hne _ h).elim
  | occur ho _ ih =>
    rename_i c o n _
    intro w w' h
    dsimp only at h
    rw [arr_eq] at h
    exact occur_takes (fun w => L.arr n w c) ih ho _ w w' h

theorem takesPair {env : Env} {c : Ctx} {n : Node} (h : TakesPair env c n) : Takers mapSizes fun w => (lim env).map n w c := by
  have L := lim_shrink env
  induction h with
  | pair c k v x =>
    intro w w' h
    dsimp only at h
    rw [map_eq] at h
    exact (mapKeyvalue_shrunk k v x w c).2 w' h
  | never c hn =>
    rename_i n
    intro w w' h
    dsimp only at h
    rw [map_eq] at h
    cases n <;> first | (cases hn; done) | (simp [mapBody] at h; done)
  | rule hl _ ih =>
    intro w w' h
    dsimp only at h
    rw [map_eq] at h
    simp only [mapBody, hl] at h
    exact ih w w' h
  | unwrap hl hm _ ih =>
    intro w w' h
    dsimp only at h
    rw [map_eq] at h
    simp only [mapBody, hl, validateMapUnwrap] at h
    exact seq_takes (fun n w => L.map n w _) hm ih w w' h
  | choice _ ih | inline _ ih =>
    intro w w' h
    dsimp only at h
    rw [map_eq] at h
    exact choice_takes (fun n w => L.map n w _) _ ih w w' h
  | choiceify hl _ _ ih1 ih2 =>
    rename_i c s as l c' _ _
    intro w w' h
    dsimp only at h
    rw [map_eq] at h
    simp only [mapBody] at h
    rw [mchf_eq] at h
    simp only [mchfBody, hl] at h
    refine choice_takes (fun n w => mapItem_shrunk L n w _) _ (fun n hn => ?_) w w' h
    cases n with
    | rule s as =>
      have := ih1 _ hn s as rfl
      intro w w' h
      refine this w w' ?_
      dsimp only
      rw [map_eq]
      exact h
    | _ => exact ih2 _ hn nofun
  | choiceifyName hl _ ih =>
    intro w w' h
    refine ih w w' ?_
    dsimp only at h ⊢
    rw [map_eq] at h ⊢
    simp only [mapBody] at h ⊢
    rw [mchf_eq] at h
    simpa only [mchfBody, hl] using h
  | group hm _ ih =>
    rename_i c l n _
    intro w w' h
    dsimp only at h
    rw [map_eq] at h
    simp only [mapBody, validateMapGroup] at h
    split at h
    · rename_i w1 hs
      have := seq_takes (S := mapSizes) (fun n w => L.map n w _) hm ih w.snapshot w1 hs
      obtain ⟨a, s⟩ := w1
      unfold WMap.commit at h
      cases s with
      | nil => cases h
      | cons => cases h; exact this
    · split at h
      · cases h
      · rename_i hne; exact (hne _ h).elim
    · rename_i hne _; exact (hne _ h).elim
  | occur ho _ ih =>
    rename_i c o n _
    intro w w' h
    dsimp only at h
    rw [map_eq] at h
    exact occur_takes (fun w => L.map n w c) ih ho _ w w' h

/-! ## Rounds -/

theorem Rounds.bound {f : σ → SRes σ} (ht : Takers S f) {k : Nat} {w w' : σ} (h : Rounds f k w w') : k + S.size w' ≤ S.size w := by
  induction h with
  | zero => omega
  | succ h _ ih =>
    have := ht _ _ h
    omega

/-- Where each round takes something, a budget of one round more than there are things is as good as the upper limit. -/
theorem occur_budget {f : σ → SRes σ} {lo up : Nat} {msg : String} (ht : Takers S f) : ∀ (k k' c : Nat) (w : σ),
    (S.size w < k ∨ up < c + k) → (S.size w < k' ∨ up < c + k') → c ≤ up →
    occurLoopS f lo up msg k c w = occurLoopS f lo up msg k' c w
  | 0, _, _, _, h, _, hc => by omega
  | _, 0, _, _, _, h, hc => by omega
  | k + 1, k' + 1, c, w, h, h', hc => by
    simp only [occurLoopS]
    cases hf : f w with
    | ok w1 =>
      have := ht _ _ hf
      dsimp only
      split
      · rfl
      · exact occur_budget ht k k' (c + 1) w1 (by omega) (by omega) (by omega)
    | _ => rfl

/-- Where a round takes nothing, the loop goes on until the upper limit. -/
theorem occur_idle {f : σ → SRes σ} {lo up : Nat} {msg : String} {w : σ} (hf : f w = .ok w) : ∀ (k c : Nat), c + k < up →
    occurLoopS f lo up msg k c w = .fuel
  | 0, _, _ => rfl
  | k + 1, c, h => by
    simp only [occurLoopS, hf]
    rw [if_neg (by omega)]
    exact occur_idle hf k (c + 1) (by omega)

end Cddl
