import Verif.Proofs.Sound

/-! # Soundness of matching: the induction -/

namespace Cddl

set_option linter.unusedSectionVars false

/-- Errors are fatal or plain mismatches. -/
def PlainErr (e : Err) : Prop := e.isFatal = false → e.isMismatch = true

theorem plainErr_ok {env : Env} (hl : ∀ s e, env.lookup s = .error e → e.isFatal = true) : OkErr env PlainErr :=
  { std := fun e he => by
      cases e with
      | mapCut m => exact absurd rfl (he m)
      | mismatch m => exact fun _ => rfl
      | _ => exact fun h => by cases h
    lookup := fun s e h hf => by rw [hl s e h] at hf; cases hf }

/-- Outer snapshots are kept. -/
structure TailRec (r : Rec) : Prop where
  arr : ∀ n w c k, w.Inv k → (r.arr n w c).Ends (ArrTail w)
  map : ∀ n w c k, w.Inv k → (r.map n w c).Ends (MapTail w)
  mchf : ∀ s as w c k, w.Inv k → (r.mchf s as w c).Ends (MapTail w)

section Tail
variable {env : Env} {E : Err → Prop} {r : Rec} (G : GoodRec env E r) (T : TailRec r)
include G T

theorem popFront_tail {w : WArr} : w.popFront.Ends (ArrTail w) := by
  unfold WArr.popFront
  split
  · trivial
  · split
    · rename_i hs; intro s ss h; rw [hs] at h; cases h
    · rename_i hs
      intro s ss h
      rw [hs] at h
      cases h
      exact ⟨_, rfl⟩

theorem remove_tail {w : WMap} {k : Value} : (w.remove k).Ends (MapTail w) := by
  unfold WMap.remove
  split
  · trivial
  · split
    · rename_i hs; intro s ss h; rw [hs] at h; cases h
    · rename_i hs
      intro s ss h
      rw [hs] at h
      cases h
      exact ⟨_, rfl⟩

theorem ofRes_tail {w : WArr} {x : Res Unit} : (SRes.ofRes x w).Ends (ArrTail w) := by
  cases x <;> first | exact ArrTail.refl w | exact fun _ => ArrTail.refl w | trivial

theorem arrayValue_tail {n : Node} {w : WArr} {c : Ctx} : (validateArrayValue env r n w c).Ends (ArrTail w) := by
  unfold validateArrayValue
  split
  · split
    · exact popFront_tail G T
    · exact ofRes_tail G T
  · exact fun _ => ArrTail.refl w

theorem arrGroup_tail {l : List Node} {w : WArr} {c : Ctx} {k : Nat} (hw : w.Inv k) :
    (validateArrayGroup r l w c).Ends (ArrTail w) := by
  unfold validateArrayGroup
  have h := seqLoopS_ends (I := WArr.Inv (k + 1)) (E := E) ArrTail.refl ArrTail.trans (l := l) (f := fun m w => r.arr m w c)
    (fun n _ w hw => G.arr n w c _ hw) (fun n _ w hw => T.arr n w c _ hw) w.snapshot hw.snapshot
  revert h
  cases seqLoopS (fun m w => r.arr m w c) l w.snapshot with
  | ok w' =>
    intro h
    obtain ⟨s', h1⟩ := h [] w.snaps rfl
    dsimp only
    unfold WArr.commit
    rw [h1]
    exact fun s ss hs => ⟨s, hs⟩
  | err e w' =>
    intro h
    dsimp only
    unfold WArr.rewind
    cases hs : w'.snaps with
    | nil => trivial
    | cons s1 ss1 =>
      intro he s ss hss
      obtain ⟨s', h1⟩ := h he [] w.snaps rfl
      rw [hs] at h1
      cases h1
      exact ⟨s, hss⟩
  | _ => intro _; trivial

theorem mapGroup_tail {l : List Node} {w : WMap} {c : Ctx} {k : Nat} (hw : w.Inv k) :
    (validateMapGroup r l w c).Ends (MapTail w) := by
  unfold validateMapGroup
  have h := seqLoopS_ends (I := WMap.Inv (k + 1)) (E := fun _ => True) MapTail.refl MapTail.trans (l := l)
    (f := fun m w => r.map m w c)
    (fun n _ w hw => G.map n w c _ hw) (fun n _ w hw => T.map n w c _ hw) w.snapshot hw.snapshot
  revert h
  cases seqLoopS (fun m w => r.map m w c) l w.snapshot with
  | ok w' =>
    intro h
    obtain ⟨s', h1⟩ := h [] w.snaps rfl
    dsimp only
    unfold WMap.commit
    rw [h1]
    exact fun s ss hs => ⟨s, hs⟩
  | err e w' =>
    intro h
    dsimp only
    unfold WMap.rewind
    cases hs : w'.snaps with
    | nil => trivial
    | cons s1 ss1 =>
      intro he s ss hss
      obtain ⟨s', h1⟩ := h (by cases e <;> first | rfl | cases he) [] w.snaps rfl
      rw [hs] at h1
      cases h1
      exact ⟨s, hss⟩
  | _ => intro _; trivial

theorem notMismatch_stop (e : Err) (h : (!e.isMismatch) = false) : e.isFatal = false :=
  isMismatch_nonfatal (by simpa using h)

theorem arr_tail {n : Node} {w : WArr} {c : Ctx} {k : Nat} (hw : w.Inv k) : (arrBody env r n w c).Ends (ArrTail w) := by
  cases n <;> simp only [arrBody] <;> try exact arrayValue_tail G T
  case occur o n =>
    exact occurLoopS_ends ArrTail.refl ArrTail.trans (I := WArr.Inv k) (E := E) (fun w hw => G.arr n w c _ hw)
      (fun w hw => T.arr n w c _ hw) _ _ w hw
  case rule s as =>
    cases c.lookupRule env s as with
    | ok a => exact T.arr _ _ _ _ hw
    | error e => exact fun _ => ArrTail.refl w
  case unwrap s as =>
    cases c.lookupRule env s as with
    | ok a =>
      dsimp only [validateArrayUnwrap]
      split
      · exact seqLoopS_ends ArrTail.refl ArrTail.trans (I := WArr.Inv k) (E := E) (fun n _ w hw => G.arr n w _ _ hw)
          (fun n _ w hw => T.arr n w _ _ hw) w hw
      · exact fun _ => ArrTail.refl w
    | error e => exact fun _ => ArrTail.refl w
  case choice l =>
    exact choiceLoopS_ends ArrTail.refl ArrTail.trans (I := WArr.Inv k) (E := E) (fun e h => h) (fun n _ w hw => G.arr n w _ _ hw)
      (fun n _ w hw => T.arr n w _ _ hw) w hw
  case group l => exact arrGroup_tail G T hw

theorem mapItem_tail {n : Node} {w : WMap} {c : Ctx} {k : Nat} (hw : w.Inv k) : (mapChoiceifyItem r c n w).Ends (MapTail w) := by
  cases n <;> simp only [mapChoiceifyItem] <;> first | exact T.map _ _ _ _ hw | exact T.mchf _ _ _ _ _ hw

theorem mapItem_good {n : Node} {w : WMap} {c : Ctx} {k : Nat} (hw : w.Inv k) :
    (mapChoiceifyItem r c n w).Safe (fun _ => True) (WMap.Inv k) := by
  cases n <;> simp only [mapChoiceifyItem] <;> first | exact G.map _ _ _ _ hw | exact G.mchf _ _ _ _ _ hw

theorem keyvalue_tail {key t : Node} {cut : Bool} {w : WMap} {c : Ctx} :
    (validateMapKeyvalue env r key t cut w c).Ends (MapTail w) := by
  unfold validateMapKeyvalue
  split
  · split
    · exact remove_tail G T
    · split <;> exact fun _ => MapTail.refl w
    · trivial
    · trivial
  · exact fun _ => MapTail.refl w
  · trivial
  · trivial

theorem map_tail {n : Node} {w : WMap} {c : Ctx} {k : Nat} (hw : w.Inv k) : (mapBody env r n w c).Ends (MapTail w) := by
  have stop := notMismatch_stop G T
  cases n <;> simp only [mapBody] <;> try exact fun _ => MapTail.refl w
  case occur o n =>
    exact occurLoopS_ends MapTail.refl MapTail.trans (I := WMap.Inv k) (E := fun _ => True) (fun w hw => G.map n w c _ hw)
      (fun w hw => T.map n w c _ hw) _ _ w hw
  case keyValue => exact keyvalue_tail G T
  case rule s as =>
    cases c.lookupRule env s as with
    | ok a => exact T.map _ _ _ _ hw
    | error e => exact fun _ => MapTail.refl w
  case unwrap s as =>
    cases c.lookupRule env s as with
    | ok a =>
      dsimp only [validateMapUnwrap]
      split
      · exact seqLoopS_ends MapTail.refl MapTail.trans (I := WMap.Inv k) (E := fun _ => True) (fun n _ w hw => G.map n w _ _ hw)
          (fun n _ w hw => T.map n w _ _ hw) w hw
      · exact fun _ => MapTail.refl w
    | error e => exact fun _ => MapTail.refl w
  case choice l =>
    exact choiceLoopS_ends MapTail.refl MapTail.trans (I := WMap.Inv k) (E := fun _ => True) stop (fun n _ w hw => G.map n w _ _ hw)
      (fun n _ w hw => T.map n w _ _ hw) w hw
  case group l => exact mapGroup_tail G T hw
  case choiceify s as => exact T.mchf _ _ _ _ _ hw
  case choiceifyInline l =>
    exact choiceLoopS_ends MapTail.refl MapTail.trans (I := WMap.Inv k) (E := fun _ => True) stop (fun n _ w hw => G.map n w _ _ hw)
      (fun n _ w hw => T.map n w _ _ hw) w hw

theorem mchf_tail {s : String} {as : List Node} {w : WMap} {c : Ctx} {k : Nat} (hw : w.Inv k) :
    (mchfBody env r s as w c).Ends (MapTail w) := by
  unfold mchfBody
  cases c.lookupRule env s as with
  | ok a =>
    dsimp only
    split
    · exact choiceLoopS_ends MapTail.refl MapTail.trans (I := WMap.Inv k) (E := fun _ => True) (notMismatch_stop G T)
        (fun n _ w hw => mapItem_good G T hw) (fun n _ w hw => mapItem_tail G T hw) w hw
    · exact T.mchf _ _ _ _ _ hw
    · exact fun _ => MapTail.refl w
  | error e => exact fun _ => MapTail.refl w

end Tail

theorem fns_tail (env : Env) : ∀ k, TailRec (fns env k)
  | 0 => ⟨fun _ _ _ _ _ => trivial, fun _ _ _ _ _ => trivial, fun _ _ _ _ _ _ => trivial⟩
  | k + 1 =>
    have G := fns_good (OkErr.triv env) k
    have T := fns_tail env k
    ⟨fun _ _ _ _ hw => arr_tail G T hw, fun _ _ _ _ hw => map_tail G T hw, fun _ _ _ _ _ hw => mchf_tail G T hw⟩

end Cddl
