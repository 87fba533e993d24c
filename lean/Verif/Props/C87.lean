import Verif.Proofs.Guard
import Verif.Proofs.NoAny
import Verif.Proofs.Reach
import Verif.Props.C45
import Verif.Props.C50
import Verif.Props.C55
import Verif.Props.C85

/-! # C87  Without `any`, accepted data is nested no deeper than the schema allows -/

namespace Cddl

theorem heightL_le {b : Nat} : ∀ {l : List Value}, (∀ v ∈ l, v.height ≤ b) → Value.heightL l ≤ b
  | [], _ => by simp [Value.heightL]
  | v :: l, h => by
    simp only [Value.heightL]
    exact Nat.max_le.mpr ⟨h v List.mem_cons_self, heightL_le fun w hw => h w (List.mem_cons_of_mem _ hw)⟩

theorem literal_height (l : Literal) : l.toValue.height = 0 := by
  cases l <;> simp [Literal.toValue, Value.height]

/-- A budget that suffices to accept data is no smaller than the height of the data. -/
theorem height_fuel {env : Env} : ∀ (k : Nat),
    (∀ {v : Value} {n : Node} {c : Ctx}, v.WF → (∀ d, ¬ Under env c n d (.prelude .any)) →
      (fns env k).val v n c = .ok () → v.height ≤ k) ∧
    (∀ {v : Value} {s : String} {as : List Node} {c : Ctx}, v.WF → (∀ d, ¬ Under env c (.choiceify s as) d (.prelude .any)) →
      (fns env k).chf s as v c = .ok () → v.height ≤ k) := by
  intro k
  induction k using Nat.strongRecOn with
  | _ k IH =>
  cases k with
  | zero =>
    constructor
    · intro v n c _ _ h
      cases h
    · intro v s as c _ _ h
      cases h
  | succ k =>
    obtain ⟨ih, ihc⟩ := IH k (Nat.lt_succ_self k)
    constructor
    · intro v n c hv hn h
      have flat : n.isFinal = true → (∀ ms, n ≠ .array ms) → (∀ ms, n ≠ .map ms) → v.height ≤ k + 1 := by
        intro hf h1 h2
        have no : ¬ ((∃ xs, v = .array xs) ∨ ∃ m, v = .map m) := by
          intro hs
          rcases final_nested hf (accepts_of_fuel _ h) hs with rfl | ⟨ms, e⟩ | ⟨ms, e⟩
          · exact hn c (.self c _)
          · exact h1 ms e
          · exact h2 ms e
        cases v with
        | array xs => exact absurd (.inl ⟨xs, rfl⟩) no
        | map m => exact absurd (.inr ⟨m, rfl⟩) no
        | _ => simp [Value.height]
      have hb : valBody env (fns env k) v n c = .ok () := h
      cases n with
      | rule s as =>
        simp only [valBody, validateRule] at hb
        cases hl : c.lookupRule env s as with
        | error e => rw [hl] at hb; cases hb
        | ok a =>
          obtain ⟨n, c'⟩ := a
          rw [hl] at hb
          exact Nat.le_succ_of_le (ih hv (fun d hd => hn d (.rule hl hd)) hb)
      | choice l =>
        obtain ⟨n, hm, hb⟩ := choiceLoop_some hb
        exact Nat.le_succ_of_le (ih hv (fun d hd => hn d (.choice hm hd)) hb)
      | group l =>
        simp only [valBody, validateStandaloneGroup] at hb
        split at hb
        · exact Nat.le_succ_of_le (ih hv (fun d hd => hn d (.group hd)) hb)
        · cases hb
      | choiceify s as => exact Nat.le_succ_of_le (ihc hv hn hb)
      | choiceifyInline l =>
        obtain ⟨n, hm, hb⟩ := choiceLoop_some hb
        unfold choiceifyItem at hb
        split at hb
        · exact Nat.le_succ_of_le (ih hv (fun d hd => hn d (.inline hm (by simp) (by simpa [Node.entryOf] using hd))) hb)
        · exact Nat.le_succ_of_le (ihc hv (fun d hd => hn d (.inlineMember hm hd)) hb)
        · rename_i hk hr
          exact Nat.le_succ_of_le (ih hv (fun d hd =>
            hn d (.inline hm (fun s as e => hr s as e) (by rw [entryOf_of hk]; exact hd))) hb)
      | array ms =>
        simp only [valBody, validateArray] at hb
        split at hb
        · rename_i xs
          have hl : Leaves (ALeft xs fun x => x.WF → x.height ≤ k)
              (seqLoopS (fun m w => (fns env k).arr m w c) ms (WArr.new xs)) := by
            refine leaves_seq (fun n hm w hw => ?_) ⟨fun x hx => .inl hx, fun x hx => hx, by simp [WArr.new]⟩
            refine fns_arr_leaves (P := fun x t d => x.WF → (∀ e, ¬ Under env d t e (.prelude .any)) → x.height ≤ k)
              k (fun j hj x t d hr hx ha => ?_) ?_ hw
            · exact Nat.le_trans ((IH j (by omega)).1 hx ha hr) (Nat.le_of_lt hj)
            · exact fun d t x ht hx hw => hx hw fun e he => hn e (.element hm ht he)
          cases hr : seqLoopS (fun m w => (fns env k).arr m w c) ms (WArr.new xs) with
          | ok w =>
            rw [hr] at hl hb
            simp only at hb
            split at hb
            · rename_i hw
              simp only [Value.height]
              refine Nat.succ_le_succ (heightL_le fun x hx => ?_)
              rcases hl.left x hx with h | h
              · rw [List.isEmpty_iff.mp hw] at h
                cases h
              · exact h (wf_elem hv hx)
            · cases hb
          | err e' w => rw [hr] at hb; cases hb
          | panic => rw [hr] at hb; cases hb
          | fuel => rw [hr] at hb; cases hb
        · cases hb
      | map ms =>
        simp only [valBody, validateMap] at hb
        split at hb
        · rename_i m
          have hl : Leaves (MLeft m fun p => p.1.WF → p.2.WF → p.1.height ≤ k ∧ p.2.height ≤ k)
              (seqLoopS (fun m w => (fns env k).map m w c) ms (WMap.new m)) := by
            refine leaves_seq (fun n hm w hw => ?_) ⟨fun x hx => .inl hx, fun x hx => hx, by simp [WMap.new]⟩
            refine (fns_map_leaves
              (P := fun x t d => x.WF → (∀ e, ¬ Under env d t e (.prelude .any)) → x.height ≤ k)
              (wf_keys_once hv) (fun l d _ _ => by rw [literal_height]; exact Nat.zero_le _)
              k (fun j hj x t d hr hx ha => ?_)).1 ?_ hw
            · exact Nat.le_trans ((IH j (by omega)).1 hx ha hr) (Nat.le_of_lt hj)
            · exact fun d a t p ht h1 h2 w1 w2 =>
                ⟨h1 w1 fun e he => hn e (.key hm ht he), h2 w2 fun e he => hn e (.value hm ht he)⟩
          cases hr : seqLoopS (fun m w => (fns env k).map m w c) ms (WMap.new m) with
          | ok w =>
            rw [hr] at hl hb
            simp only at hb
            split at hb
            · rename_i hw
              simp only [Value.height]
              refine Nat.succ_le_succ (Value.heightM_le fun a b hx => ?_)
              rcases hl.left _ hx with h | h
              · rw [List.isEmpty_iff.mp hw] at h
                cases h
              · exact h (wf_pair hv.2 hx).1 (wf_pair hv.2 hx).2
            · cases hb
          | err e' w => rw [hr] at hb; cases hb
          | panic => rw [hr] at hb; cases hb
          | fuel => rw [hr] at hb; cases hb
        · cases hb
      | _ => exact flat rfl (by simp) (by simp)
    · intro v s as c hv hn h
      simp only [fns, step, chfBody] at h
      cases hl : c.lookupRule env s as with
      | error e => rw [hl] at h; cases h
      | ok a =>
        obtain ⟨n, c'⟩ := a
        rw [hl] at h
        simp only [Res.ofExcept, Res.bind] at h
        split at h
        · obtain ⟨n, hm, h⟩ := choiceLoop_some h
          unfold choiceifyItem at h
          split at h
          · exact Nat.le_succ_of_le (ih hv (fun d hd =>
              hn d (.choiceify hl hm (by simp) (by simpa [Node.entryOf] using hd))) h)
          · exact Nat.le_succ_of_le (ihc hv (fun d hd => hn d (.choiceifyMember hl hm hd)) h)
          · rename_i hk hr
            exact Nat.le_succ_of_le (ih hv (fun d hd =>
              hn d (.choiceify hl hm (fun s as e => hr s as e) (by rw [entryOf_of hk]; exact hd))) h)
        · exact Nat.le_succ_of_le (ihc hv (fun d hd => hn d (.choiceifyName hl hd)) h)
        · cases h

/-- Without parameters: data is no higher than there are brackets still to come. -/
theorem height_reach {env : Env} {B : Nat} (hB : ∀ s rd, env.lookup s = .ok rd → rd.params = [] ∧ rd.node.brackets ≤ B) :
    ∀ (k : Nat),
    (∀ {v : Value} {n : Node} {c : Ctx}, v.WF → c.unbound → (∀ d, ¬ Under env c n d (.prelude .any)) →
      (fns env k).val v n c = .ok () → v.height ≤ c.reach B n) ∧
    (∀ {v : Value} {s : String} {as : List Node} {c : Ctx}, v.WF → c.unbound →
      (∀ d, ¬ Under env c (.choiceify s as) d (.prelude .any)) →
      (fns env k).chf s as v c = .ok () → v.height ≤ c.reach B (.choiceify s as)) := by
  intro k
  induction k using Nat.strongRecOn with
  | _ k IH =>
  cases k with
  | zero =>
    constructor
    · intro v n c _ _ _ h
      cases h
    · intro v s as c _ _ _ h
      cases h
  | succ k =>
    obtain ⟨ih, ihc⟩ := IH k (Nat.lt_succ_self k)
    constructor
    · intro v n c hv hc hn h
      have flat : n.isFinal = true → (∀ ms, n ≠ .array ms) → (∀ ms, n ≠ .map ms) → v.height ≤ c.reach B n := by
        intro hf h1 h2
        have no : ¬ ((∃ xs, v = .array xs) ∨ ∃ m, v = .map m) := by
          intro hs
          rcases final_nested hf (accepts_of_fuel _ h) hs with rfl | ⟨ms, e⟩ | ⟨ms, e⟩
          · exact hn c (.self c _)
          · exact h1 ms e
          · exact h2 ms e
        cases v with
        | array xs => exact absurd (.inl ⟨xs, rfl⟩) no
        | map m => exact absurd (.inr ⟨m, rfl⟩) no
        | _ => simp [Value.height]
      have member : ∀ {l : List Node} {m : Node} {j : Nat}, m ∈ l → j ≤ c.reach B m →
          j ≤ Node.bracketsL l + (50 - c.depth) * B := by
        intro l m j hm hj
        have := bracketsL_mem hm
        unfold Ctx.reach at hj
        omega
      have hb : valBody env (fns env k) v n c = .ok () := h
      cases n with
      | rule s as =>
        simp only [valBody, validateRule] at hb
        cases hl : c.lookupRule env s as with
        | error e => rw [hl] at hb; cases hb
        | ok a =>
          obtain ⟨n, c'⟩ := a
          rw [hl] at hb
          obtain ⟨h1, h2⟩ := lookup_reach hB hc hl
          exact Nat.le_trans (ih hv h1 (fun d hd => hn d (.rule hl hd)) hb) (Nat.le_trans h2 (Nat.le_add_left ..))
      | choice l =>
        obtain ⟨n, hm, hb⟩ := choiceLoop_some hb
        exact member hm (ih hv hc (fun d hd => hn d (.choice hm hd)) hb)
      | group l =>
        simp only [valBody, validateStandaloneGroup] at hb
        split at hb
        · exact member List.mem_cons_self (ih hv hc (fun d hd => hn d (.group hd)) hb)
        · cases hb
      | choiceify s as => exact ihc hv hc hn hb
      | choiceifyInline l =>
        obtain ⟨n, hm, hb⟩ := choiceLoop_some hb
        unfold choiceifyItem at hb
        split at hb
        · refine member hm (Nat.le_trans
            (ih hv hc (fun d hd => hn d (.inline hm (by simp) (by simpa [Node.entryOf] using hd))) hb) ?_)
          unfold Ctx.reach
          simp only [Node.brackets]
          exact Nat.add_le_add_right (Nat.le_max_right ..) _
        · refine member hm (Nat.le_trans (ihc hv hc (fun d hd => hn d (.inlineMember hm hd)) hb) ?_)
          unfold Ctx.reach
          simp only [Node.brackets]
          exact Nat.le_refl _
        · rename_i hk hr
          exact member hm (ih hv hc (fun d hd =>
            hn d (.inline hm (fun s as e => hr s as e) (by rw [entryOf_of hk]; exact hd))) hb)
      | array ms =>
        simp only [valBody, validateArray] at hb
        split at hb
        · rename_i xs
          have hl : Leaves (ALeft xs fun x => x.WF → x.height ≤ Node.bracketsL ms + (50 - c.depth) * B)
              (seqLoopS (fun m w => (fns env k).arr m w c) ms (WArr.new xs)) := by
            refine leaves_seq (fun n hm w hw => ?_) ⟨fun x hx => .inl hx, fun x hx => hx, by simp [WArr.new]⟩
            refine fns_arr_leaves
              (P := fun x t d => x.WF → d.unbound → (∀ e, ¬ Under env d t e (.prelude .any)) → x.height ≤ d.reach B t)
              k (fun j hj x t d hr hx hd ha => (IH j (by omega)).1 hx hd ha hr) ?_ hw
            intro d t x ht hx hw
            obtain ⟨h1, h2⟩ := ht.reach hB hc
            exact member hm (Nat.le_trans (hx hw h1 fun e he => hn e (.element hm ht he)) h2)
          cases hr : seqLoopS (fun m w => (fns env k).arr m w c) ms (WArr.new xs) with
          | ok w =>
            rw [hr] at hl hb
            simp only at hb
            split at hb
            · rename_i hw
              have : Value.heightL xs ≤ Node.bracketsL ms + (50 - c.depth) * B := by
                refine heightL_le fun x hx => ?_
                rcases hl.left x hx with h | h
                · rw [List.isEmpty_iff.mp hw] at h
                  cases h
                · exact h (wf_elem hv hx)
              unfold Ctx.reach
              simp only [Value.height, Node.brackets]
              omega
            · cases hb
          | err e' w => rw [hr] at hb; cases hb
          | panic => rw [hr] at hb; cases hb
          | fuel => rw [hr] at hb; cases hb
        · cases hb
      | map ms =>
        simp only [valBody, validateMap] at hb
        split at hb
        · rename_i m
          have hl : Leaves (MLeft m fun p => p.1.WF → p.2.WF → p.1.height ≤ Node.bracketsL ms + (50 - c.depth) * B ∧
                p.2.height ≤ Node.bracketsL ms + (50 - c.depth) * B)
              (seqLoopS (fun m w => (fns env k).map m w c) ms (WMap.new m)) := by
            refine leaves_seq (fun n hm w hw => ?_) ⟨fun x hx => .inl hx, fun x hx => hx, by simp [WMap.new]⟩
            refine (fns_map_leaves
              (P := fun x t d => x.WF → d.unbound → (∀ e, ¬ Under env d t e (.prelude .any)) → x.height ≤ d.reach B t)
              (wf_keys_once hv) (fun l d _ _ _ => by rw [literal_height]; exact Nat.zero_le _)
              k (fun j hj x t d hr hx hd ha => (IH j (by omega)).1 hx hd ha hr)).1 ?_ hw
            intro d a t p ht h1 h2 w1 w2
            obtain ⟨h3, h4, h5⟩ := ht.reach hB hc
            exact ⟨member hm (Nat.le_trans (h1 w1 h3 fun e he => hn e (.key hm ht he)) h4),
              member hm (Nat.le_trans (h2 w2 h3 fun e he => hn e (.value hm ht he)) h5)⟩
          cases hr : seqLoopS (fun m w => (fns env k).map m w c) ms (WMap.new m) with
          | ok w =>
            rw [hr] at hl hb
            simp only at hb
            split at hb
            · rename_i hw
              have : Value.heightM m ≤ Node.bracketsL ms + (50 - c.depth) * B := by
                refine Value.heightM_le fun a b hx => ?_
                rcases hl.left _ hx with h | h
                · rw [List.isEmpty_iff.mp hw] at h
                  cases h
                · exact h (wf_pair hv.2 hx).1 (wf_pair hv.2 hx).2
              unfold Ctx.reach
              simp only [Value.height, Node.brackets]
              omega
            · cases hb
          | err e' w => rw [hr] at hb; cases hb
          | panic => rw [hr] at hb; cases hb
          | fuel => rw [hr] at hb; cases hb
        · cases hb
      | _ => exact flat rfl (by simp) (by simp)
    · intro v s as c hv hc hn h
      simp only [fns, step, chfBody] at h
      cases hl : c.lookupRule env s as with
      | error e => rw [hl] at h; cases h
      | ok a =>
        obtain ⟨n, c'⟩ := a
        rw [hl] at h
        simp only [Res.ofExcept, Res.bind] at h
        obtain ⟨h1, h2⟩ := lookup_reach hB hc hl
        unfold Ctx.reach at ih ihc
        unfold Ctx.reach
        simp only [Node.brackets, Nat.zero_add] at ihc ⊢
        split at h
        · rename_i l
          simp only [Node.brackets] at h2
          obtain ⟨n, hm, h⟩ := choiceLoop_some h
          have h4 := bracketsL_mem hm
          unfold choiceifyItem at h
          split at h
          · rename_i a t x
            have h5 := ih hv h1 (fun d hd => hn d (.choiceify hl hm (by simp) (by simpa [Node.entryOf] using hd))) h
            have h6 : t.brackets ≤ (Node.keyValue a t x).brackets := entryOf_brackets (.keyValue a t x)
            omega
          · have h5 := ihc hv h1 (fun d hd => hn d (.choiceifyMember hl hm hd)) h
            omega
          · rename_i hk hr
            have h5 := ih hv h1 (fun d hd =>
              hn d (.choiceify hl hm (fun s as e => hr s as e) (by rw [entryOf_of hk]; exact hd))) h
            omega
        · have h5 := ihc hv h1 (fun d hd => hn d (.choiceifyName hl hd)) h
          omega
        · cases h

theorem height_of_budget {env : Env} {N : Nat} {rd : RuleDef} {v : Value} (hv : v.WF)
    (ha : ∀ d, ¬ Under env top rd.node d (.prelude .any)) (hN : doValidateF env N v rd = doValidate env v rd)
    (h : doValidate env v rd = .ok ()) : v.height ≤ N := by
  rw [h] at hN
  unfold doValidateF at hN
  split at hN
  · cases hN
  · exact (height_fuel N).1 hv ha hN

/-- C87.  If no rule is larger than `S` and `any` does not stand under the rule, accepted data is nested at most
`3 * (S + 1) ^ 51` deep, recursive as the schema may be. -/
theorem C87_generic {env : Env} {S : Nat} {rd : RuleDef} {v : Value} (hS : env.Within S) (hrd : rd.node.size ≤ S)
    (ha : ∀ d, ¬ Under env top rd.node d (.prelude .any)) (hv : v.WF) (h : doValidate env v rd = .ok ()) :
    v.height ≤ 3 * (S + 1) ^ 51 :=
  height_of_budget hv ha (C50_generic hS hrd _ (Nat.le_refl _) v) h

/-- C87.  If moreover no rule has parameters, and arrays and maps are nested in each rule at most `B` deep, accepted data is
nested at most `50 * B` deeper than the brackets of the rule. -/
theorem C87_plain {env : Env} {B : Nat} {rd : RuleDef} {v : Value}
    (hB : ∀ s rd, env.lookup s = .ok rd → rd.params = [] ∧ rd.node.brackets ≤ B)
    (ha : ∀ d, ¬ Under env top rd.node d (.prelude .any)) (hv : v.WF) (h : doValidate env v rd = .ok ()) :
    v.height ≤ rd.node.brackets + 50 * B := by
  unfold doValidate at h
  split at h
  · cases h
  · obtain ⟨N, hN⟩ := (lim_ev env).val v rd.node (.root 0)
    have e := hN N (Nat.le_refl N)
    have h' : (lim env).val v rd.node (.root 0) = .ok () := h
    rw [h'] at e
    exact (height_reach hB N).1 (c := .root 0) hv trivial ha e

theorem RuleTable.brackets_mem {t : RuleTable} {s : String} {rd : RuleDef} (h : (s, rd) ∈ t) :
    rd.node.brackets ≤ t.brackets := by
  induction t with
  | nil => cases h
  | cons x t ih =>
    have he : RuleTable.brackets (x :: t) = max x.2.node.brackets (RuleTable.brackets t) := rfl
    rw [he]
    rcases List.mem_cons.mp h with rfl | h
    · exact Nat.le_max_left ..
    · exact Nat.le_trans (ih h) (Nat.le_max_right ..)

/-- C87 for whole calls with JSON texts, if no rule has parameters. -/
theorem C87_json_plain {l : Libs} {cddl : String} {t : RuleTable} (ht : flattenFromStr l cddl = .ok t) (ha : t.noAny = true)
    (hp : ∀ s rd, (s, rd) ∈ t → rd.params = [])
    {name json : String} {j : Json} {v : Value} (hj : l.jsonDecode json = .ok j) (hc : j.toValue = .ok v)
    (h : validateJsonStr l name cddl json = .ok ()) : v.height ≤ 51 * t.brackets := by
  unfold validateJsonStr findRule at h
  rw [ht] at h
  simp only [Res.bind] at h
  cases hr : t.find name with
  | none => rw [hr] at h; cases h
  | some rd =>
    rw [hr, hj] at h
    simp only [hc, Res.ofExcept] at h
    have no : ∀ s rd, (s, rd) ∈ t → rd.node.noAny = true := fun s rd hm => List.all_eq_true.mp ha _ hm
    have hm := RuleTable.find_mem hr
    have := C87_plain (B := t.brackets)
      (fun s rd hl => ⟨hp _ _ (RuleTable.lookup_mem hl), RuleTable.brackets_mem (RuleTable.lookup_mem hl)⟩)
      (under_noAny (fun s rd hl => no s rd (RuleTable.lookup_mem hl)) (no _ _ hm)) (j.toValue_WF v hc) h
    have := RuleTable.brackets_mem hm
    omega

/-- C87 for whole calls with JSON texts: for a schema text none of whose rules mentions `any` there is a depth such that no
JSON text with data that is nested more deeply is accepted. -/
theorem C87_json {l : Libs} {cddl : String} {t : RuleTable} (ht : flattenFromStr l cddl = .ok t) (ha : t.noAny = true)
    {name json : String} {j : Json} {v : Value} (hj : l.jsonDecode json = .ok j) (hc : j.toValue = .ok v)
    (h : validateJsonStr l name cddl json = .ok ()) : v.height ≤ 3 * (t.size + 1) ^ 51 := by
  unfold validateJsonStr findRule at h
  rw [ht] at h
  simp only [Res.bind] at h
  cases hr : t.find name with
  | none => rw [hr] at h; cases h
  | some rd =>
    rw [hr, hj] at h
    simp only [hc, Res.ofExcept] at h
    have no : ∀ s rd, (s, rd) ∈ t → rd.node.noAny = true := fun s rd hm => List.all_eq_true.mp ha _ hm
    have hm := RuleTable.find_mem hr
    exact C87_generic (RuleTable.within l t) (RuleTable.size_mem hm)
      (under_noAny (fun s rd hl => no s rd (RuleTable.lookup_mem hl)) (no _ _ hm)) (j.toValue_WF v hc) h

/-- C87 for whole calls with CBOR bytes. -/
theorem C87_cbor {l : Libs} {cddl : String} {t : RuleTable} (ht : flattenFromStr l cddl = .ok t) (ha : t.noAny = true)
    {name : String} {cbor : List UInt8} {j : Cbor} {v : Value} (hj : l.cborDecode cbor = .ok j) (hc : j.toValue = .ok v)
    (h : validateCborBytes l name cddl cbor = .ok ()) : v.height ≤ 3 * (t.size + 1) ^ 51 := by
  unfold validateCborBytes findRule at h
  rw [ht] at h
  simp only [Res.bind] at h
  cases hr : t.find name with
  | none => rw [hr] at h; cases h
  | some rd =>
    rw [hr, hj] at h
    simp only [hc, Res.ofExcept] at h
    have no : ∀ s rd, (s, rd) ∈ t → rd.node.noAny = true := fun s rd hm => List.all_eq_true.mp ha _ hm
    have hm := RuleTable.find_mem hr
    exact C87_generic (RuleTable.within l t) (RuleTable.size_mem hm)
      (under_noAny (fun s rd hl => no s rd (RuleTable.lookup_mem hl)) (no _ _ hm)) (j.toValue_WF v hc) h

/-- The recursive rule `t = [* t]`. -/
def c87Table : RuleTable := [("t", ⟨[], .array [.occur .zeroOrMore (.rule "t" [])]⟩)]

/-- C87, an instance: all that `t = [* t]` accepts is nested at most 50 deep. -/
theorem C87_example {v : Value} (hv : v.WF) (h : doValidate (demoEnv c87Table) v ⟨[], .rule "t" []⟩ = .ok ()) :
    v.height ≤ 50 := by
  have only : ∀ s rd, (demoEnv c87Table).lookup s = .ok rd → rd = ⟨[], .array [.occur .zeroOrMore (.rule "t" [])]⟩ := by
    intro s rd h
    have h := RuleTable.lookup_mem h
    simp only [c87Table, List.mem_singleton, Prod.mk.injEq] at h
    exact h.2
  exact C87_plain (B := 1) (fun s rd h => by rw [only s rd h]; decide)
    (under_noAny (fun s rd h => by rw [only s rd h]; decide) (by decide)) hv h

/-- The instance is not empty: `[[], [[]]]` is accepted. -/
example : doValidate (demoEnv c87Table) (.array [.array [], .array [.array []]]) ⟨[], .rule "t" []⟩ = .ok () :=
  validate_of_fuel 60 (by decide)

/-- The bound of `C87_plain` is reached: `t = [] / [t]` accepts data that is nested 50 deep. -/
theorem C87_tight : ∃ v : Value, v.height = 50 ∧ doValidate
    (demoEnv [("t", ⟨[], .choice [.array [], .array [.rule "t" []]]⟩)]) v ⟨[], .rule "t" []⟩ = .ok () :=
  ⟨nest 49, by decide +kernel, validate_of_fuel 300 (by decide +kernel)⟩

/-- C87 needs that `any` is not mentioned: it accepts data of every depth. -/
theorem C87_any_needed : ¬ ∃ b, ∀ v : Value, v.WF → doValidate (demoEnv []) v ⟨[], .prelude .any⟩ = .ok () → v.height ≤ b := by
  rintro ⟨b, hb⟩
  let deep : Nat → Value := fun k => Nat.rec (.integer 0) (fun _ v => .array [v]) k
  have h1 : ∀ k, (deep k).height = k := by
    intro k
    induction k with
    | zero => rfl
    | succ k ih =>
      show (Value.array [deep k]).height = k + 1
      simp [Value.height, Value.heightL, ih]
  have h2 : ∀ k, (deep k).WF := by
    intro k
    induction k with
    | zero => trivial
    | succ k ih => exact (Value.WFArr_iff _).mpr fun x hx => by rw [List.mem_singleton.mp hx]; exact ih
  have := hb (deep (b + 1)) (h2 (b + 1)) (by
    show (lim (demoEnv [])).val (deep (b + 1)) _ _ = _
    rw [val_eq]
    rfl)
  have e := h1 (b + 1)
  exact absurd (e ▸ this : b + 1 ≤ b) (Nat.not_succ_le_self b)

end Cddl
