import Verif.Proofs.Stands

/-! # What has to be there is there -/

namespace Cddl

section
variable {σ : Type} {I : σ → Prop}

/-- Every member of the list has succeeded. -/
theorem seq_each {f : Node → σ → SRes σ} : ∀ {l : List Node} {w w' : σ},
    (∀ n ∈ l, ∀ w, I w → Leaves I (f n w)) → I w → seqLoopS f l w = .ok w' → ∀ n ∈ l, ∃ w0 w1, I w0 ∧ f n w0 = .ok w1
  | [], _, _, _, _, _ => by simp
  | n :: l, w, w', hf, h, hr => by
    have h1 := hf n List.mem_cons_self w h
    unfold seqLoopS at hr
    cases hn : f n w with
    | ok w1 =>
      rw [hn] at h1 hr
      have ih := seq_each (fun m hm => hf m (List.mem_cons_of_mem _ hm)) h1 hr
      intro m hm
      rcases List.mem_cons.mp hm with rfl | hm
      · exact ⟨w, w1, h, hn⟩
      · exact ih m hm
    | err e w1 => rw [hn] at hr; cases hr
    | panic => rw [hn] at hr; cases hr
    | fuel => rw [hn] at hr; cases hr

/-- One of the options has succeeded. -/
theorem choice_one {f : Node → σ → SRes σ} {stop : Err → Bool} {msg : String} : ∀ {l : List Node} {w w' : σ},
    (∀ n ∈ l, ∀ w, I w → Leaves I (f n w)) → I w → choiceLoopS f stop msg l w = .ok w' →
    ∃ n ∈ l, ∃ w0 w1, I w0 ∧ f n w0 = .ok w1
  | [], _, _, _, _, hr => by cases hr
  | n :: l, w, w', hf, h, hr => by
    have h1 := hf n List.mem_cons_self w h
    unfold choiceLoopS at hr
    cases hn : f n w with
    | ok w1 => exact ⟨n, List.mem_cons_self, w, w1, h, hn⟩
    | err e w1 =>
      rw [hn] at h1 hr
      simp only at hr
      split at hr
      · cases hr
      · obtain ⟨m, hm, q⟩ := choice_one (fun m hm => hf m (List.mem_cons_of_mem _ hm)) h1 hr
        exact ⟨m, List.mem_cons_of_mem _ hm, q⟩
    | panic => rw [hn] at hr; cases hr
    | fuel => rw [hn] at hr; cases hr

/-- What has to occur has succeeded once. -/
theorem occur_once {f : σ → SRes σ} {lo up : Nat} {msg : String} {k : Nat} {w w' : σ} (hl : lo ≠ 0)
    (hr : occurLoopS f lo up msg k 0 w = .ok w') : ∃ w1, f w = .ok w1 := by
  cases k with
  | zero => cases hr
  | succ k =>
    unfold occurLoopS at hr
    cases hn : f w with
    | ok w1 => exact ⟨w1, rfl⟩
    | err e w1 =>
      rw [hn] at hr
      simp only at hr
      split at hr
      · rw [if_pos (Nat.pos_of_ne_zero hl)] at hr
        cases hr
      · cases hr
    | panic => rw [hn] at hr; cases hr
    | fuel => rw [hn] at hr; cases hr

end

variable {env : Env} {xs : List Value}

theorem goodA_any {n : Node} {c : Ctx} : GoodA env (fun v n c => Accepts env c n v) (fun _ => True) n c := fun _ _ _ _ _ => trivial

theorem arrayValue_filled {k : Nat} {t : Node} {c : Ctx} {w w' : WArr} (h : ALeft xs (fun _ => True) w)
    (hr : validateArrayValue env (fns env k) t w c = .ok w') : ∃ x ∈ xs, Accepts env c t x := by
  unfold validateArrayValue at hr
  split at hr
  · rename_i x rest ha
    cases hv : (fns env k).val x t c with
    | ok u => exact ⟨x, h.array x (by simp [ha]), lim_val_of_fns hv (by simp)⟩
    | err e => simp only [hv, SRes.ofRes] at hr; cases hr
    | panic => simp only [hv, SRes.ofRes] at hr; cases hr
    | fuel => simp only [hv, SRes.ofRes] at hr; cases hr
  · cases hr

theorem arr_filled : ∀ (k : Nat) {n : Node} {c : Ctx} {w w' : WArr}, ALeft xs (fun _ => True) w →
    (fns env k).arr n w c = .ok w' → Filled env xs c n
  | 0, _, _, _, _, _, hr => by cases hr
  | k + 1, n, c, w, w', h, hr => by
    have leaves : ∀ (c : Ctx) (n : Node) (w : WArr), ALeft xs (fun _ => True) w →
        Leaves (ALeft xs fun _ => True) ((fns env k).arr n w c) := fun c n w hw => fns_arr_leaves k (fns_accepts k) goodA_any hw
    have alone : n.isElement = true → (∀ k t x, n ≠ .keyValue k t x) →
        validateArrayValue env (fns env k) n w c = .ok w' → Filled env xs c n := by
      intro h1 h2 hr
      obtain ⟨x, hx, ha⟩ := arrayValue_filled h hr
      exact .alone h1 h2 hx ha
    have hb : arrBody env (fns env k) n w c = .ok w' := hr
    cases n with
    | rule name as =>
      simp only [arrBody] at hb
      cases hl : c.lookupRule env name as with
      | error e => rw [hl] at hb; cases hb
      | ok a =>
        obtain ⟨m, c'⟩ := a
        rw [hl] at hb
        exact .rule hl (arr_filled k h hb)
    | unwrap name as =>
      simp only [arrBody] at hb
      cases hl : c.lookupRule env name as with
      | error e => rw [hl] at hb; cases hb
      | ok a =>
        obtain ⟨m, c'⟩ := a
        rw [hl] at hb
        simp only [validateArrayUnwrap] at hb
        split at hb
        · refine .unwrap hl fun n hn => ?_
          obtain ⟨w0, w1, h0, h1⟩ := seq_each (fun n _ w hw => leaves c' n w hw) h hb n hn
          exact arr_filled k h0 h1
        · cases hb
    | choice l =>
      obtain ⟨n, hn, w0, w1, h0, h1⟩ := choice_one (fun n _ w hw => leaves c n w hw) h hb
      exact .choice hn (arr_filled k h0 h1)
    | group l =>
      simp only [arrBody, validateArrayGroup] at hb
      cases hs : seqLoopS (fun m w => (fns env k).arr m w c) l w.snapshot with
      | ok w2 =>
        refine .group fun n hn => ?_
        obtain ⟨w0, w1, h0, h1⟩ := seq_each (fun n _ w hw => leaves c n w hw) h.snapshot hs n hn
        exact arr_filled k h0 h1
      | err e w2 =>
        rw [hs] at hb
        simp only [WArr.rewind] at hb
        cases hq : w2.snaps with
        | nil => simp only [hq] at hb; cases hb
        | cons q qs => simp only [hq] at hb; cases hb
      | panic => rw [hs] at hb; cases hb
      | fuel => rw [hs] at hb; cases hb
    | keyValue a t y =>
      obtain ⟨x, hx, ha⟩ := arrayValue_filled h hb
      exact .keyed hx ha
    | occur o n =>
      by_cases hl : o.limits.1 = 0
      · exact .none hl
      · obtain ⟨w1, h1⟩ := occur_once hl hb
        exact .some (arr_filled k h h1)
    | _ => exact alone rfl (by simp) hb

variable {m : VMap}

theorem goodM_any {n : Node} {c : Ctx} : GoodM env (fun v n c => Accepts env c n v) (fun _ => True) n c := fun _ _ _ _ _ _ _ => trivial

theorem map_filled (hm : ∀ p ∈ m, ∀ q ∈ m, p.1 = q.1 → p = q) : ∀ (k : Nat),
    (∀ {n : Node} {c : Ctx} {w w' : WMap}, MLeft m (fun _ => True) w →
      (fns env k).map n w c = .ok w' → FilledM env m c n) ∧
    (∀ {s : String} {as : List Node} {c : Ctx} {w w' : WMap}, MLeft m (fun _ => True) w →
      (fns env k).mchf s as w c = .ok w' → FilledM env m c (.choiceify s as))
  | 0 => by
    constructor
    · intro n c w w' _ hr
      cases hr
    · intro s as c w w' _ hr
      cases hr
  | k + 1 => by
    obtain ⟨ih, ihc⟩ := map_filled hm k
    have leaves : ∀ (c : Ctx) (n : Node) (w : WMap), MLeft m (fun _ => True) w →
        Leaves (MLeft m fun _ => True) ((fns env k).map n w c) := fun c n w hw => (fns_map_leaves hm literal_itself k (fns_accepts k)).1 goodM_any hw
    constructor
    · intro n c w w' h hr
      have hb : mapBody env (fns env k) n w c = .ok w' := hr
      cases n with
      | rule name as =>
        simp only [mapBody] at hb
        cases hl : c.lookupRule env name as with
        | error e => rw [hl] at hb; cases hb
        | ok a =>
          obtain ⟨n, c'⟩ := a
          rw [hl] at hb
          exact .rule hl (ih h hb)
      | unwrap name as =>
        simp only [mapBody] at hb
        cases hl : c.lookupRule env name as with
        | error e => rw [hl] at hb; cases hb
        | ok a =>
          obtain ⟨n, c'⟩ := a
          rw [hl] at hb
          simp only [validateMapUnwrap] at hb
          split at hb
          · refine .unwrap hl fun n hn => ?_
            obtain ⟨w0, w1, h0, h1⟩ := seq_each (fun n _ w hw => leaves c' n w hw) h hb n hn
            exact ih h0 h1
          · cases hb
      | choice l =>
        obtain ⟨n, hn, w0, w1, h0, h1⟩ := choice_one (fun n _ w hw => leaves c n w hw) h hb
        exact .choice hn (ih h0 h1)
      | choiceifyInline l =>
        obtain ⟨n, hn, w0, w1, h0, h1⟩ := choice_one (fun n _ w hw => leaves c n w hw) h hb
        exact .inline hn (ih h0 h1)
      | choiceify name as => exact ihc h hb
      | group l =>
        simp only [mapBody, validateMapGroup] at hb
        cases hs : seqLoopS (fun m w => (fns env k).map m w c) l w.snapshot with
        | ok w2 =>
          refine .group fun n hn => ?_
          obtain ⟨w0, w1, h0, h1⟩ := seq_each (fun n _ w hw => leaves c n w hw) h.snapshot hs n hn
          exact ih h0 h1
        | err e w2 =>
          rw [hs] at hb
          simp only [WMap.rewind] at hb
          cases hq : w2.snaps with
          | nil => simp only [hq] at hb; cases hb
          | cons q qs => simp only [hq] at hb; cases hb
        | panic => rw [hs] at hb; cases hb
        | fuel => rw [hs] at hb; cases hb
      | keyValue a t y =>
        simp only [mapBody, validateMapKeyvalue] at hb
        cases hk : validateMapKey env (fns env k) a w c with
        | ok p =>
          obtain ⟨h1, h2⟩ := mapKey_fits (P := fun v n c => Accepts env c n v) (fun _ _ _ hr => lim_val_of_fns hr (by simp)) literal_itself hk
          obtain ⟨p, q⟩ := p
          rw [hk] at hb
          simp only at hb
          cases hv : (fns env k).val q t c with
          | ok u => exact .pair (p := (p, q)) (h.map _ h2) h1 (lim_val_of_fns hv (by simp))
          | err e => rw [hv] at hb; simp only at hb; split at hb <;> cases hb
          | panic => rw [hv] at hb; cases hb
          | fuel => rw [hv] at hb; cases hb
        | err e => rw [hk] at hb; cases hb
        | panic => rw [hk] at hb; cases hb
        | fuel => rw [hk] at hb; cases hb
      | occur o n =>
        by_cases hl : o.limits.1 = 0
        · exact .none hl
        · obtain ⟨w1, h1⟩ := occur_once hl hb
          exact .some (ih h h1)
      | _ => cases hb
    · intro name as c w w' h hr
      have hb : mchfBody env (fns env k) name as w c = .ok w' := hr
      unfold mchfBody at hb
      cases hl : c.lookupRule env name as with
      | error e => rw [hl] at hb; cases hb
      | ok a =>
        obtain ⟨n, c'⟩ := a
        rw [hl] at hb
        simp only at hb
        split at hb
        · have item : ∀ (n : Node) (w : WMap), MLeft m (fun _ => True) w →
              Leaves (MLeft m fun _ => True) (mapChoiceifyItem (fns env k) c' n w) := by
            intro n w hw
            unfold mapChoiceifyItem
            split
            · exact leaves _ _ _ hw
            · exact (fns_map_leaves hm literal_itself k (fns_accepts k)).2 goodM_any hw
            · exact leaves _ _ _ hw
          obtain ⟨n, hn, w0, w1, h0, h1⟩ := choice_one (fun n _ w hw => item n w hw) h hb
          unfold mapChoiceifyItem at h1
          split at h1
          · exact .choiceify hl hn (by simp) (ih h0 h1)
          · exact .choiceifyMember hl hn (ihc h0 h1)
          · rename_i hk hr
            refine .choiceify hl hn (fun s as e => hr s as e) ?_
            have e : n.entryOf = n := by
              cases n with
              | keyValue a b d => exact absurd rfl (hk a b d)
              | _ => rfl
            rw [e]
            exact ih h0 h1
        · exact .choiceifyName hl (ihc h hb)
        · cases hb

end Cddl
