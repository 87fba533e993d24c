import Verif.Spec.Uses

/-! # An unusable name is reported where it is used -/

namespace Cddl

theorem arr_isItem {env : Env} {n : Node} {w : WArr} {c : Ctx} (h : n.isItem = true) :
    (lim env).arr n w c = validateArrayValue env (lim env) n w c := by
  rw [arr_eq]
  cases n <;> first | rfl | (simp [Node.isItem] at h)

theorem lookupRule_global {env : Env} {c : Ctx} {s : String} {as : List Node} (hp : c.param s = none) :
    c.lookupRule env s as = (env.lookup s).bind fun rd => (c.derive rd as).bind fun d => .ok (rd.node, d) := by
  cases c with
  | root d => rfl
  | frame g p d => simp only [Ctx.param] at hp; simp only [Ctx.lookupRule, hp]

theorem eraseMapcut_fatal {e : Err} (h : e.isFatal = true) : e.eraseMapcut = e := by
  cases e <;> first | rfl | cases h

theorem isMismatch_fatal {e : Err} (h : e.isFatal = true) : e.isMismatch = false := by
  cases e <;> first | rfl | cases h

theorem firstUse_err {env : Env} {c : Ctx} {s : String} {as : List Node} {e : Err} (he : e.isFatal = true)
    (hl : c.lookupRule env s as = .error e) {v : Value} {n : Node} (h : FirstUse s as v n) :
    validate env v n c = .err e := by
  have hm := isMismatch_fatal he
  have hc := eraseMapcut_fatal he
  have hd : (lim env).deref (.rule s as) c = .err e := by
    rw [deref_eq]; simp only [derefBody, hl, Res.ofExcept, Res.bind]
  have ha : ∀ w, (lim env).arr (.rule s as) w c = .err e w := by
    intro w; rw [arr_eq]; simp only [arrBody, hl]
  have hmp : ∀ w, (lim env).map (.rule s as) w c = .err e w := by
    intro w; rw [map_eq]; simp only [mapBody, hl]
  induction h with
  | rule v =>
    unfold validate; rw [val_eq]; simp only [valBody, validateRule, hl, Res.ofExcept, Res.bind]
  | choiceify v =>
    unfold validate; rw [val_eq]; simp only [valBody]; rw [chf_eq]
    simp only [chfBody, hl, Res.ofExcept, Res.bind]
  | rangeStart v b i =>
    unfold validate; rw [val_eq]; simp only [valBody, validateRange, hd, Res.bind]
  | rangeStop v l i =>
    have : (lim env).deref (.literal l) c = .ok l := by rw [deref_eq]; rfl
    unfold validate; rw [val_eq]; simp only [valBody, validateRange, hd, this, Res.bind]
  | ctlArg v o t =>
    have : (lim env).chase (.rule s as) c = .err e := by
      rw [chase_eq]; simp only [chaseBody, hl, Res.ofExcept, Res.bind]
    unfold validate; rw [val_eq]
    cases o <;> simp only [valBody, validateControl, validateControlSize, validateControlLt, validateControlLe,
      validateControlGt, validateControlGe, this, Res.bind]
  | choice ns _ ih =>
    unfold validate at ih ⊢; rw [val_eq]
    simp [valBody, validateChoice, choiceLoop, ih, he]
  | arrayEntry xs ms =>
    unfold validate; rw [val_eq]; simp only [valBody, validateArray, seqLoopS, ha]
  | arrayUnwrap xs ms =>
    unfold validate; rw [val_eq]; simp only [valBody, validateArray, seqLoopS]; rw [arr_eq]
    simp only [arrBody, hl]
  | arrayOccur xs o ms =>
    unfold validate; rw [val_eq]; simp only [valBody, validateArray, seqLoopS]; rw [arr_eq]
    simp [arrBody, validateArrayOccur, occurLoopS, ha, hm]
  | arrayItem xs ms _ hi ih =>
    unfold validate at ih ⊢; rw [val_eq]
    simp only [valBody, validateArray, seqLoopS, arr_isItem hi, validateArrayValue, WArr.new, ih, SRes.ofRes]
  | arrayKeyed xs k cut ms _ ih =>
    unfold validate at ih ⊢; rw [val_eq]
    simp only [valBody, validateArray, seqLoopS, WArr.new]; rw [arr_eq]
    simp only [arrBody, validateArrayValue, ih, SRes.ofRes]
  | mapEntry m ms =>
    unfold validate; rw [val_eq]; simp only [valBody, validateMap, seqLoopS, hmp, hc]
  | mapUnwrap m ms =>
    unfold validate; rw [val_eq]; simp only [valBody, validateMap, seqLoopS]; rw [map_eq]
    simp only [mapBody, hl, hc]
  | mapChoiceify m ms =>
    unfold validate; rw [val_eq]; simp only [valBody, validateMap, seqLoopS]; rw [map_eq]
    simp only [mapBody]; rw [mchf_eq]; simp only [mchfBody, hl, hc]
  | mapOccur m o ms =>
    unfold validate; rw [val_eq]; simp only [valBody, validateMap, seqLoopS]; rw [map_eq]
    simp [mapBody, validateMapOccur, occurLoopS, hmp, hm, hc]

end Cddl
