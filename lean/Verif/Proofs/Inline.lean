import Verif.Proofs.Frame
import Verif.Proofs.Fatal

/-! # Replacing an entry by several entries -/

namespace Cddl

/-- Run one matching step after another. -/
def SRes.andThen {σ : Type} (r : SRes σ) (k : σ → SRes σ) : SRes σ :=
  match r with
  | .ok w => k w
  | r => r

/-- Same answer; on success related working copies. -/
inductive SOut {σ : Type} (E : σ → σ → Prop) : SRes σ → SRes σ → Prop
  | ok {w w'} : E w w' → SOut E (.ok w) (.ok w')
  | err (e) {w w'} : SOut E (.err e w) (.err e w')
  | panic : SOut E .panic .panic
  | fuel : SOut E .fuel .fuel

/-- Same answer up to turning a cut into a plain mismatch; on success related working copies. -/
inductive SCut {σ : Type} (E : σ → σ → Prop) : SRes σ → SRes σ → Prop
  | ok {w w'} : E w w' → SCut E (.ok w) (.ok w')
  | err {e e' : Err} {w w'} : e.eraseMapcut = e'.eraseMapcut → SCut E (.err e w) (.err e' w')
  | panic : SCut E .panic .panic
  | fuel : SCut E .fuel .fuel

section
variable {σ : Type} {E : σ → σ → Prop}

theorem SEqv.out {r r' : SRes σ} (h : SEqv E r r') : SOut E r r' := by
  cases h with
  | ok h => exact .ok h
  | err e _ => exact .err e
  | panic => exact .panic
  | fuel => exact .fuel

theorem SOut.cut {r r' : SRes σ} (h : SOut E r r') : SCut E r r' := by
  cases h with
  | ok h => exact .ok h
  | err e => exact .err rfl
  | panic => exact .panic
  | fuel => exact .fuel

theorem SEqv.refl' (hE : ∀ w, E w w) (r : SRes σ) : SEqv E r r := by
  cases r with
  | ok w => exact .ok (hE w)
  | err e w => exact .err e (hE w)
  | panic => exact .panic
  | fuel => exact .fuel

theorem SOut.andThen {r r' : SRes σ} {k k' : σ → SRes σ} (h : SOut E r r')
    (hk : ∀ w w', E w w' → SOut E (k w) (k' w')) : SOut E (r.andThen k) (r'.andThen k') := by
  cases h with
  | ok h => exact hk _ _ h
  | err e => exact .err e
  | panic => exact .panic
  | fuel => exact .fuel

theorem SCut.andThen {r r' : SRes σ} {k k' : σ → SRes σ} (h : SCut E r r')
    (hk : ∀ w w', E w w' → SCut E (k w) (k' w')) : SCut E (r.andThen k) (r'.andThen k') := by
  cases h with
  | ok h => exact hk _ _ h
  | err h => exact .err h
  | panic => exact .panic
  | fuel => exact .fuel

theorem SFat.andThen {r r' : SRes σ} {k k' : σ → SRes σ} (h : SFat r r')
    (hk : ∀ w, SFat (k w) (k' w)) : SFat (r.andThen k) (r'.andThen k') := by
  rcases h with (h | h) | ⟨e, w, h, he⟩ | h
  · rw [h]; exact .inl (.inl rfl)
  · rw [h]; exact .inl (.inr rfl)
  · rw [h]; exact .inr (.inl ⟨e, w, rfl, he⟩)
  · rw [h]
    cases r with
    | ok w => exact hk w
    | _ => exact .refl _

theorem seqLoopS_cons (f : Node → σ → SRes σ) (n : Node) (ns : List Node) (w : σ) :
    seqLoopS f (n :: ns) w = (f n w).andThen (seqLoopS f ns) := by
  simp only [seqLoopS, SRes.andThen]
  cases f n w <;> rfl

theorem seqLoopS_app (f : Node → σ → SRes σ) : ∀ (l l' : List Node) (w : σ),
    seqLoopS f (l ++ l') w = (seqLoopS f l w).andThen (seqLoopS f l')
  | [], _, _ => rfl
  | n :: l, l', w => by
    rw [List.cons_append, seqLoopS_cons, seqLoopS_cons]
    cases f n w with
    | ok w => exact seqLoopS_app f l l' w
    | _ => rfl
end

theorem SRes.er_true {σ : Type} (r : SRes σ) : r.er true = r := by
  cases r <;> simp [SRes.er, Err.er]

/-- A rule found in a table stands in it. -/
theorem RuleTable.find_mem {s : String} {d : RuleDef} : ∀ {t : RuleTable}, t.find s = some d → (s, d) ∈ t
  | (n, d') :: t, h => by
    simp only [RuleTable.find] at h
    split at h
    · rename_i hd
      cases h
      exact List.mem_cons_of_mem _ (RuleTable.find_mem hd)
    · split at h
      · cases h; subst_vars; exact List.mem_cons_self
      · cases h

theorem RuleTable.lookup_mem {s : String} {d : RuleDef} {t : RuleTable} (h : t.lookup s = .ok d) : (s, d) ∈ t := by
  unfold RuleTable.lookup at h
  split at h
  · cases h; exact RuleTable.find_mem ‹_›
  · cases h

/-- The end of array validation. -/
def arrayEnd : SRes WArr → Res Unit
  | .ok w => if w.array.isEmpty then .ok () else .err (.mismatch "shorter array")
  | .err e _ => .err e
  | .panic => .panic
  | .fuel => .fuel

/-- The end of map validation. -/
def mapEnd : SRes WMap → Res Unit
  | .ok w => if w.map.isEmpty then .ok () else .err (.mismatch "shorter map")
  | .err e _ => .err e.eraseMapcut
  | .panic => .panic
  | .fuel => .fuel

theorem validate_array_eq (env : Env) (ms : List Node) (a : List Value) (c : Ctx) :
    validate env (.array a) (.array ms) c = arrayEnd (seqLoopS (fun m w => (lim env).arr m w c) ms (WArr.new a)) := by
  unfold validate
  rw [val_eq]
  simp only [valBody, validateArray]
  cases seqLoopS (fun m w => (lim env).arr m w c) ms (WArr.new a) <;> rfl

theorem validate_map_eq (env : Env) (ms : List Node) (m : VMap) (c : Ctx) :
    validate env (.map m) (.map ms) c = mapEnd (seqLoopS (fun m w => (lim env).map m w c) ms (WMap.new m)) := by
  unfold validate
  rw [val_eq]
  simp only [valBody, validateMap]
  cases seqLoopS (fun m w => (lim env).map m w c) ms (WMap.new m) <;> rfl

theorem arrayEnd_out {r r' : SRes WArr} (h : SOut (WArr.Eqv 0) r r') : arrayEnd r = arrayEnd r' := by
  cases h with
  | ok h => simp only [arrayEnd, h.1]
  | _ => rfl

theorem mapEnd_cut {r r' : SRes WMap} (h : SCut (WMap.Eqv 0) r r') : mapEnd r = mapEnd r' := by
  cases h with
  | ok h => simp only [mapEnd, h.1]
  | err h => simp only [mapEnd, h]
  | _ => rfl

theorem eraseMapcut_fatal' {e : Err} (h : e.isFatal = true) : e.eraseMapcut = e := by
  cases e <;> first | rfl | cases h

theorem arrayEnd_fat {r r' : SRes WArr} (h : SFat r r') : RFat (arrayEnd r) (arrayEnd r') := by
  rcases h with (h | h) | ⟨e, w, h, he⟩ | h
  · rw [h]; exact .inl (.inl rfl)
  · rw [h]; exact .inl (.inr rfl)
  · rw [h]; exact .inr (.inl ⟨e, rfl, he⟩)
  · rw [h]; exact .refl _

theorem mapEnd_fat {r r' : SRes WMap} (h : SFat r r') : RFat (mapEnd r) (mapEnd r') := by
  rcases h with (h | h) | ⟨e, w, h, he⟩ | h
  · rw [h]; exact .inl (.inl rfl)
  · rw [h]; exact .inl (.inr rfl)
  · rw [h]; refine .inr (.inl ⟨e, ?_, he⟩); simp only [mapEnd, eraseMapcut_fatal' he]
  · rw [h]; exact .refl _

theorem WArr.Eqv.refl0 (w : WArr) : w.Eqv 0 w := ⟨rfl, rfl, Nat.zero_le _, Nat.zero_le _⟩
theorem WMap.Eqv.refl0 (w : WMap) : w.Eqv 0 w := ⟨rfl, rfl, Nat.zero_le _, Nat.zero_le _⟩

/-- An inline group in an array, in terms of its members. -/
theorem arrGroup_out (env : Env) (ms : List Node) (c : Ctx) (w : WArr) :
    SOut (WArr.Eqv 0) (validateArrayGroup (lim env) ms w c) (seqLoopS (fun m w => (lim env).arr m w c) ms w) := by
  have h1 : SEqv (WArr.Eqv 0) (seqLoopS (fun m w => (lim env).arr m w c) ms w.snapshot)
      (seqLoopS (fun m w => (lim env).arr m w c) ms w) :=
    seqLoopS_eqv (l := ms) ⟨rfl, rfl, Nat.zero_le _, Nat.zero_le _⟩ fun n _ w w' h => (lim_frame env).arr 0 n c w w' h
  have h2 : SEqv (WArr.Eqv 1) (seqLoopS (fun m w => (lim env).arr m w c) ms w.snapshot)
      (seqLoopS (fun m w => (lim env).arr m w c) ms w.snapshot) :=
    seqLoopS_eqv (l := ms) ⟨rfl, rfl, by simp [WArr.snapshot], by simp [WArr.snapshot]⟩
      fun n _ w w' h => (lim_frame env).arr 1 n c w w' h
  unfold validateArrayGroup
  generalize seqLoopS (fun m w => (lim env).arr m w c) ms w.snapshot = r at h1 h2
  generalize seqLoopS (fun m w => (lim env).arr m w c) ms w = r' at h1
  cases h1 with
  | ok h =>
    cases h2 with
    | ok h' =>
      rename_i w1 w2
      obtain ⟨a, s⟩ := w1
      cases s with
      | nil => exact absurd h'.2.2.1 (by simp)
      | cons => exact .ok ⟨h.1, rfl, Nat.zero_le _, Nat.zero_le _⟩
  | err e h =>
    cases h2 with
    | err _ h' =>
      rename_i w1 w2
      obtain ⟨a, s⟩ := w1
      cases s with
      | nil => exact absurd h'.2.2.1 (by simp)
      | cons => exact .err e
  | panic => exact .panic
  | fuel => exact .fuel

theorem mapGroup_cut (env : Env) (ms : List Node) (c : Ctx) (w : WMap) :
    SCut (WMap.Eqv 0) (validateMapGroup (lim env) ms w c) (seqLoopS (fun m w => (lim env).map m w c) ms w) := by
  have h1 : SEqv (WMap.Eqv 0) (seqLoopS (fun m w => (lim env).map m w c) ms w.snapshot)
      (seqLoopS (fun m w => (lim env).map m w c) ms w) :=
    seqLoopS_eqv (l := ms) ⟨rfl, rfl, Nat.zero_le _, Nat.zero_le _⟩ fun n _ w w' h => (lim_frame env).map 0 n c w w' h
  have h2 : SEqv (WMap.Eqv 1) (seqLoopS (fun m w => (lim env).map m w c) ms w.snapshot)
      (seqLoopS (fun m w => (lim env).map m w c) ms w.snapshot) :=
    seqLoopS_eqv (l := ms) ⟨rfl, rfl, by simp [WMap.snapshot], by simp [WMap.snapshot]⟩
      fun n _ w w' h => (lim_frame env).map 1 n c w w' h
  unfold validateMapGroup
  generalize seqLoopS (fun m w => (lim env).map m w c) ms w.snapshot = r at h1 h2
  generalize seqLoopS (fun m w => (lim env).map m w c) ms w = r' at h1
  cases h1 with
  | ok h =>
    cases h2 with
    | ok h' =>
      rename_i w1 w2
      obtain ⟨a, s⟩ := w1
      cases s with
      | nil => exact absurd h'.2.2.1 (by simp)
      | cons => exact .ok ⟨h.1, rfl, Nat.zero_le _, Nat.zero_le _⟩
  | err e h =>
    cases h2 with
    | err _ h' =>
      rename_i w1 w2
      obtain ⟨a, s⟩ := w1
      cases s with
      | nil => exact absurd h'.2.2.1 (by simp)
      | cons => exact .err (by cases e <;> rfl)
  | panic => exact .panic
  | fuel => exact .fuel

/-- Replacing an entry of an array by entries that act alike. -/
theorem array_subst {env : Env} {c : Ctx} {x : Node} {M : WArr → SRes WArr}
    (hx : ∀ w, SOut (WArr.Eqv 0) ((lim env).arr x w c) (M w)) (pre post : List Node) (a : List Value) :
    validate env (.array a) (.array (pre ++ x :: post)) c =
      arrayEnd (((seqLoopS (fun m w => (lim env).arr m w c) pre (WArr.new a)).andThen M).andThen
        (seqLoopS (fun m w => (lim env).arr m w c) post)) := by
  rw [validate_array_eq, seqLoopS_app]
  refine arrayEnd_out ?_
  have e : (seqLoopS (fun m w => (lim env).arr m w c) (x :: post)) =
      fun w => ((lim env).arr x w c).andThen (seqLoopS (fun m w => (lim env).arr m w c) post) := by
    funext w; rw [seqLoopS_cons]
  rw [e]
  cases seqLoopS (fun m w => (lim env).arr m w c) pre (WArr.new a) with
  | ok w =>
    exact (hx w).andThen fun w w' h => (seqLoopS_eqv (l := post) h fun n _ w w' h => (lim_frame env).arr 0 n c w w' h).out
  | err e w => exact .err e
  | panic => exact .panic
  | fuel => exact .fuel

theorem map_subst {env : Env} {c : Ctx} {x : Node} {M : WMap → SRes WMap}
    (hx : ∀ w, SCut (WMap.Eqv 0) ((lim env).map x w c) (M w)) (pre post : List Node) (a : VMap) :
    validate env (.map a) (.map (pre ++ x :: post)) c =
      mapEnd (((seqLoopS (fun m w => (lim env).map m w c) pre (WMap.new a)).andThen M).andThen
        (seqLoopS (fun m w => (lim env).map m w c) post)) := by
  rw [validate_map_eq, seqLoopS_app]
  refine mapEnd_cut ?_
  have e : (seqLoopS (fun m w => (lim env).map m w c) (x :: post)) =
      fun w => ((lim env).map x w c).andThen (seqLoopS (fun m w => (lim env).map m w c) post) := by
    funext w; rw [seqLoopS_cons]
  rw [e]
  cases seqLoopS (fun m w => (lim env).map m w c) pre (WMap.new a) with
  | ok w =>
    exact (hx w).andThen fun w w' h => (seqLoopS_eqv (l := post) h fun n _ w w' h => (lim_frame env).map 0 n c w w' h).out.cut
  | err e w => exact .err rfl
  | panic => exact .panic
  | fuel => exact .fuel

end Cddl
