import Verif.Model.Bare
import Verif.Proofs.Depth

/-! # Without the feature, validation returns -/

namespace Cddl

theorem stepBare_mono {env : Env} {a b : Rec} (h : Rec.Le a b) : Rec.Le (stepBare env a) (stepBare env b) where
  val v n c := by
    show Res.Le (valBodyBare env a v n c) (valBodyBare env b v n c)
    have hv := (step_mono (env := env) h).val v n c
    cases n
    case ctlCbor => exact .rfl
    all_goals exact hv
  chf := (step_mono (env := env) h).chf
  arr := (step_mono (env := env) h).arr
  map := (step_mono (env := env) h).map
  mchf := (step_mono (env := env) h).mchf
  deref := (step_mono (env := env) h).deref
  chase := (step_mono (env := env) h).chase

theorem fnsBare_le_succ (env : Env) : ∀ n, Rec.Le (fnsBare env n) (fnsBare env (n + 1))
  | 0 => Rec.bot_le _
  | n + 1 => stepBare_mono (fnsBare_le_succ env n)

theorem fnsBare_mono (env : Env) {n m : Nat} (h : n ≤ m) : Rec.Le (fnsBare env n) (fnsBare env m) := by
  induction h with
  | refl => exact .refl _
  | step _ ih => exact ih.trans (fnsBare_le_succ env _)

theorem fnsBare_budget (env : Env) : Budget env (fnsBare env) := fun n q h => by
  have hs := step_returns env (fnsBare env n) q h
  cases q
  case val v m c =>
    show valBodyBare env (fnsBare env n) v m c ≠ .fuel
    cases m
    case ctlCbor => exact fun h => (nomatch h)
    all_goals exact hs
  all_goals exact hs

end Cddl
