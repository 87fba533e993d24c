import Verif.Proofs.Safe

/-! # Loops over working copies: what is taken, noted and undone -/

namespace Cddl

/-- On success `Q` holds of the working copy. -/
def SRes.Gives {σ : Type} (Q : σ → Prop) : SRes σ → Prop
  | .ok w => Q w
  | _ => True

/-- On success, and after a non-fatal error, `Q` holds of the working copy. -/
def SRes.Ends {σ : Type} (Q : σ → Prop) : SRes σ → Prop
  | .ok w => Q w
  | .err e w => e.isFatal = false → Q w
  | _ => True

/-- After a non-fatal error the working copy is `w`. -/
def SRes.FailsAt {σ : Type} (w : σ) : SRes σ → Prop
  | .err e w' => e.isFatal = false → w' = w
  | _ => True

/-- Errors are fatal or plain mismatches. -/
def SRes.Uncut {σ : Type} : SRes σ → Prop
  | .err e _ => e.isFatal = false → e.isMismatch = true
  | _ => True

/-- Chunks taken one after the other, one for each node. -/
inductive SeqP {α : Type} (P : Node → List α → Prop) : List Node → List α → Prop
  | nil : SeqP P [] []
  | cons {n ns xs ys} : P n xs → SeqP P ns ys → SeqP P (n :: ns) (xs ++ ys)

/-- `k` chunks taken one after the other. -/
inductive RepP {α : Type} (P : List α → Prop) : Nat → List α → Prop
  | zero : RepP P 0 []
  | succ {k xs ys} : P xs → RepP P k ys → RepP P (k + 1) (xs ++ ys)

theorem isMismatch_nonfatal {e : Err} (h : e.isMismatch = true) : e.isFatal = false := by
  cases e <;> first | rfl | cases h

section
variable {σ : Type} {I : σ → Prop} {E : Err → Prop}

section Eats
variable {α : Type} {Eats : σ → List α → σ → Prop} (nil : ∀ w, Eats w [] w)
  (trans : ∀ {w xs w1 ys w2}, Eats w xs w1 → Eats w1 ys w2 → Eats w (xs ++ ys) w2)
include nil trans

theorem seqLoopS_gives {f : Node → σ → SRes σ} {P : Node → List α → Prop} :
    ∀ {l : List Node}, (∀ n ∈ l, ∀ w, I w → (f n w).Safe E I) →
      (∀ n ∈ l, ∀ w, I w → (f n w).Gives fun w' => ∃ xs, Eats w xs w' ∧ P n xs) →
      ∀ w, I w → (seqLoopS f l w).Gives fun w' => ∃ xs, Eats w xs w' ∧ SeqP P l xs
  | [], _, _, w, _ => ⟨[], nil w, .nil⟩
  | n :: ns, hs, hg, w, hw => by
    have h1 := hs n (by simp) w hw
    have h2 := hg n (by simp) w hw
    simp only [seqLoopS]
    cases hf : f n w with
    | ok w1 =>
      rw [hf] at h1 h2
      obtain ⟨xs, he, hp⟩ := h2
      have ih := seqLoopS_gives (l := ns) (fun m hm => hs m (List.mem_cons_of_mem _ hm)) (fun m hm => hg m (List.mem_cons_of_mem _ hm)) w1 h1
      dsimp only
      revert ih
      cases seqLoopS f ns w1 with
      | ok w2 => rintro ⟨ys, he', hp'⟩; exact ⟨xs ++ ys, trans he he', .cons hp hp'⟩
      | _ => intro _; trivial
    | _ => trivial

theorem occurLoopS_gives {f : σ → SRes σ} {P : List α → Prop} {lo up : Nat} {msg : String}
    (hs : ∀ w, I w → (f w).Safe E I) (hg : ∀ w, I w → (f w).Gives fun w' => ∃ xs, Eats w xs w' ∧ P xs)
    (ha : ∀ w, I w → (f w).FailsAt w) :
    ∀ (k cnt : Nat) (w : σ), I w → cnt < up → (occurLoopS f lo up msg k cnt w).Gives fun w' =>
      ∃ j xs, Eats w xs w' ∧ RepP P j xs ∧ lo ≤ cnt + j ∧ cnt + j ≤ up
  | 0, _, _, _, _ => trivial
  | k + 1, cnt, w, hw, hu => by
    have h1 := hs w hw
    have h2 := hg w hw
    have h3 := ha w hw
    simp only [occurLoopS]
    cases hf : f w with
    | ok w1 =>
      rw [hf] at h1 h2
      obtain ⟨xs, he, hp⟩ := h2
      dsimp only
      split
      · split
        · trivial
        · exact ⟨1, xs ++ [], trans he (nil _), .succ hp .zero, by omega, by omega⟩
      · have ih := occurLoopS_gives hs hg ha (lo := lo) (up := up) (msg := msg) k (cnt + 1) w1 h1 (by omega)
        revert ih
        cases occurLoopS f lo up msg k (cnt + 1) w1 with
        | ok w2 => rintro ⟨j, ys, he', hp', hl, hu⟩; exact ⟨j + 1, xs ++ ys, trans he he', .succ hp hp', by omega, by omega⟩
        | _ => intro _; trivial
    | err e w1 =>
      rw [hf] at h3
      dsimp only
      split
      · rename_i hm
        obtain rfl := h3 (isMismatch_nonfatal hm)
        split
        · trivial
        · exact ⟨0, [], nil _, .zero, by omega, by omega⟩
      · trivial
    | _ => trivial

end Eats

theorem choiceLoopS_gives {f : Node → σ → SRes σ} {stop : Err → Bool} {msg : String} {Q : Node → σ → Prop}
    (hst : ∀ e, stop e = false → e.isFatal = false) :
    ∀ {l : List Node} (w : σ), (∀ n ∈ l, (f n w).Gives (Q n)) → (∀ n ∈ l.dropLast, (f n w).FailsAt w) →
      (choiceLoopS f stop msg l w).Gives fun w' => ∃ n ∈ l, Q n w'
  | [], _, _, _ => trivial
  | n :: ns, w, hg, ha => by
    have h2 := hg n (by simp)
    simp only [choiceLoopS]
    cases hf : f n w with
    | ok w1 => rw [hf] at h2; exact ⟨n, by simp, h2⟩
    | err e w1 =>
      dsimp only
      split
      · trivial
      · rename_i hs
        cases ns with
        | nil => trivial
        | cons m ms =>
          have h3 := ha n (by simp)
          rw [hf] at h3
          obtain rfl := h3 (hst e (by simpa using hs))
          have ih := choiceLoopS_gives hst w1 (fun m hm => hg m (List.mem_cons_of_mem _ hm))
            (fun x hx => ha x (by simp only [List.dropLast_cons_cons, List.mem_cons]; exact .inr hx)) (msg := msg)
          revert ih
          cases choiceLoopS f stop msg (m :: ms) w1 with
          | ok w2 => rintro ⟨x, hx, hq⟩; exact ⟨x, List.mem_cons_of_mem _ hx, hq⟩
          | _ => intro _; trivial
    | _ => trivial

theorem choiceLoopS_failsAt {f : Node → σ → SRes σ} {stop : Err → Bool} {msg : String}
    (hst : ∀ e, stop e = false → e.isFatal = false) :
    ∀ {l : List Node} (w : σ), (∀ n ∈ l, (f n w).FailsAt w) → (choiceLoopS f stop msg l w).FailsAt w
  | [], _, _ => fun _ => rfl
  | n :: ns, w, ha => by
    have h3 := ha n (by simp)
    simp only [choiceLoopS]
    cases hf : f n w with
    | err e w1 =>
      rw [hf] at h3
      dsimp only
      split
      · exact h3
      · rename_i hs
        obtain rfl := h3 (hst e (by simpa using hs))
        exact choiceLoopS_failsAt hst w1 fun m hm => ha m (List.mem_cons_of_mem _ hm)
    | _ => trivial

section Held
variable {H : σ → σ → Prop} (refl : ∀ w, H w w) (trans : ∀ {w w1 w2}, H w w1 → H w1 w2 → H w w2)

theorem SRes.Ends.after {H : σ → σ → Prop} (trans : ∀ {w w1 w2}, H w w1 → H w1 w2 → H w w2) {w w1 : σ} {r : SRes σ}
    (h : H w w1) (hr : r.Ends (H w1)) : r.Ends (H w) := by
  cases r with
  | ok w2 => exact trans h hr
  | err e w2 => exact fun he => trans h (hr he)
  | _ => trivial

include refl trans

theorem seqLoopS_ends {f : Node → σ → SRes σ} :
    ∀ {l : List Node}, (∀ n ∈ l, ∀ w, I w → (f n w).Safe E I) →
      (∀ n ∈ l, ∀ w, I w → (f n w).Ends (H w)) → ∀ w, I w → (seqLoopS f l w).Ends (H w)
  | [], _, _, w, _ => refl w
  | n :: ns, hs, hg, w, hw => by
    have h1 := hs n (by simp) w hw
    have h2 := hg n (by simp) w hw
    simp only [seqLoopS]
    cases hf : f n w with
    | ok w1 =>
      rw [hf] at h1 h2
      exact SRes.Ends.after (H := H) (w := w) (w1 := w1) trans h2
        (seqLoopS_ends (l := ns) (fun m hm => hs m (List.mem_cons_of_mem _ hm)) (fun m hm => hg m (List.mem_cons_of_mem _ hm)) w1 h1)
    | err e w1 => rw [hf] at h2; exact h2
    | _ => trivial

theorem choiceLoopS_ends {f : Node → σ → SRes σ} {stop : Err → Bool} {msg : String}
    (hst : ∀ e, stop e = false → e.isFatal = false) :
    ∀ {l : List Node}, (∀ n ∈ l, ∀ w, I w → (f n w).Safe E I) →
      (∀ n ∈ l, ∀ w, I w → (f n w).Ends (H w)) → ∀ w, I w → (choiceLoopS f stop msg l w).Ends (H w)
  | [], _, _, w, _ => fun _ => refl w
  | n :: ns, hs, hg, w, hw => by
    have h1 := hs n (by simp) w hw
    have h2 := hg n (by simp) w hw
    simp only [choiceLoopS]
    cases hf : f n w with
    | ok w1 => rw [hf] at h2; exact h2
    | err e w1 =>
      rw [hf] at h1 h2
      dsimp only
      split
      · exact h2
      · rename_i hst'
        exact SRes.Ends.after (H := H) (w := w) (w1 := w1) trans (h2 (hst e (by simpa using hst')))
          (choiceLoopS_ends (l := ns) hst (fun m hm => hs m (List.mem_cons_of_mem _ hm)) (fun m hm => hg m (List.mem_cons_of_mem _ hm)) w1 h1.2)
    | _ => trivial

theorem occurLoopS_ends {f : σ → SRes σ} {lo up : Nat} {msg : String}
    (hs : ∀ w, I w → (f w).Safe E I) (hg : ∀ w, I w → (f w).Ends (H w)) :
    ∀ (k cnt : Nat) (w : σ), I w → (occurLoopS f lo up msg k cnt w).Ends (H w)
  | 0, _, _, _ => trivial
  | k + 1, cnt, w, hw => by
    have h1 := hs w hw
    have h2 := hg w hw
    simp only [occurLoopS]
    cases hf : f w with
    | ok w1 =>
      rw [hf] at h1 h2
      dsimp only
      split
      · split
        · exact fun _ => h2
        · exact h2
      · exact SRes.Ends.after (H := H) (w := w) (w1 := w1) trans h2 (occurLoopS_ends hs hg k (cnt + 1) w1 h1)
    | err e w1 =>
      rw [hf] at h2
      dsimp only
      split
      · rename_i hm
        split
        · exact fun _ => h2 (isMismatch_nonfatal hm)
        · exact h2 (isMismatch_nonfatal hm)
      · exact h2
    | _ => trivial

/-- All entries but the last are logged, the last is logged or atomic: at a failure everything is on record. -/
theorem seqLoopS_logged {f : Node → σ → SRes σ} :
    ∀ {l : List Node}, (∀ n ∈ l, ∀ w, I w → (f n w).Safe E I) →
      (∀ n ∈ l.dropLast, ∀ w, I w → (f n w).Ends (H w)) →
      (∀ n, l.getLast? = some n → (∀ w, I w → (f n w).Ends (H w)) ∨ ∀ w, I w → (f n w).FailsAt w) → ∀ w, I w →
      ∀ e w', seqLoopS f l w = .err e w' → e.isFatal = false → H w w'
  | [], _, _, _, w, _ => fun e w' h => by cases h
  | [n], _, _, hl, w, hw => fun e w' h he => by
    simp only [seqLoopS] at h
    cases hf : f n w with
    | ok w1 => rw [hf] at h; cases h
    | err e1 w1 =>
      rw [hf] at h
      cases h
      rcases hl n (by simp) with h | h
      · have := h w hw; rw [hf] at this; exact this he
      · have := h w hw; rw [hf] at this; rw [this he]; exact refl w
    | panic => rw [hf] at h; cases h
    | fuel => rw [hf] at h; cases h
  | n :: m :: ns, hs, hg, hl, w, hw => fun e w' h he => by
    have h1 := hs n (by simp) w hw
    have h2 := hg n (by simp) w hw
    rw [seqLoopS] at h
    cases hf : f n w with
    | ok w1 =>
      rw [hf] at h h1 h2
      exact trans h2 (seqLoopS_logged (l := m :: ns) (fun x hx => hs x (List.mem_cons_of_mem _ hx))
        (fun x hx => hg x (by simp only [List.dropLast_cons_cons, List.mem_cons]; exact .inr hx))
        (fun x hx => hl x (by simpa [List.getLast?_cons_cons] using hx)) w1 h1 e w' h he)
    | err e1 w1 => rw [hf] at h h2; cases h; exact h2 he
    | panic => rw [hf] at h; cases h
    | fuel => rw [hf] at h; cases h

end Held

theorem seqLoopS_uncut {f : Node → σ → SRes σ} :
    ∀ {l : List Node}, (∀ n ∈ l, ∀ w, I w → (f n w).Safe E I) → (∀ n ∈ l, ∀ w, I w → (f n w).Uncut) → ∀ w, I w →
      (seqLoopS f l w).Uncut
  | [], _, _, w, _ => trivial
  | n :: ns, hs, hg, w, hw => by
    have h1 := hs n (by simp) w hw
    have h2 := hg n (by simp) w hw
    simp only [seqLoopS]
    cases hf : f n w with
    | ok w1 =>
      rw [hf] at h1
      exact seqLoopS_uncut (l := ns) (fun m hm => hs m (List.mem_cons_of_mem _ hm))
        (fun m hm => hg m (List.mem_cons_of_mem _ hm)) w1 h1
    | err e w1 => rw [hf] at h2; exact h2
    | _ => trivial

theorem choiceLoopS_uncut {f : Node → σ → SRes σ} {stop : Err → Bool} {msg : String} :
    ∀ {l : List Node}, (∀ n ∈ l, ∀ w, I w → (f n w).Safe E I) → (∀ n ∈ l, ∀ w, I w → (f n w).Uncut) → ∀ w, I w →
      (choiceLoopS f stop msg l w).Uncut
  | [], _, _, w, _ => fun _ => rfl
  | n :: ns, hs, hg, w, hw => by
    have h1 := hs n (by simp) w hw
    have h2 := hg n (by simp) w hw
    simp only [choiceLoopS]
    cases hf : f n w with
    | err e w1 =>
      rw [hf] at h1 h2
      dsimp only
      split
      · exact h2
      · exact choiceLoopS_uncut (l := ns) (fun m hm => hs m (List.mem_cons_of_mem _ hm))
          (fun m hm => hg m (List.mem_cons_of_mem _ hm)) w1 h1.2
    | _ => trivial

theorem occurLoopS_uncut {f : σ → SRes σ} {lo up : Nat} {msg : String} (hs : ∀ w, I w → (f w).Safe E I)
    (hg : ∀ w, I w → (f w).Uncut) :
    ∀ (k cnt : Nat) (w : σ), I w → (occurLoopS f lo up msg k cnt w).Uncut
  | 0, _, _, _ => trivial
  | k + 1, cnt, w, hw => by
    have h1 := hs w hw
    have h2 := hg w hw
    simp only [occurLoopS]
    cases hf : f w with
    | ok w1 =>
      rw [hf] at h1
      dsimp only
      split
      · split
        · exact fun _ => rfl
        · trivial
      · exact occurLoopS_uncut hs hg k (cnt + 1) w1 h1
    | err e w1 =>
      rw [hf] at h2
      dsimp only
      split
      · split
        · exact fun _ => rfl
        · trivial
      · exact h2
    | _ => trivial

/-- Occurrences of an atomic entry that need at most one of it. -/
theorem occurLoopS_failsAt {f : σ → SRes σ} {lo up : Nat} {msg : String} (hlo : lo ≤ 1)
    (hg : ∀ w, I w → (f w).FailsAt w) (hc : up ≤ 1 ∨ ∀ w, I w → (f w).Uncut) (hs : ∀ w, I w → (f w).Safe E I)
    (k : Nat) (w : σ) (hw : I w) : (occurLoopS f lo up msg k 0 w).FailsAt w := by
  -- after the first success only a cut or a fatal error can make the loop fail
  have later : (∀ w, I w → (f w).Uncut) → ∀ k cnt w, I w → 1 ≤ cnt →
      ∀ e w', occurLoopS f lo up msg k cnt w = .err e w' → e.isFatal = true := by
    intro hu k
    induction k with
    | zero => intro cnt w _ _ e w' h; cases h
    | succ k ih =>
      intro cnt w hw hc e w' h
      simp only [occurLoopS] at h
      have hs1 := hs w hw
      have hu1 := hu w hw
      cases hf : f w with
      | ok w1 =>
        rw [hf] at h hs1
        dsimp only at h
        split at h
        · rw [if_neg (by omega)] at h; cases h
        · exact ih _ _ hs1 (by omega) e w' h
      | err e1 w1 =>
        rw [hf] at h hu1
        dsimp only at h
        split at h
        · rw [if_neg (by omega)] at h; cases h
        · rename_i hm
          cases h
          cases hfat : e.isFatal with
          | true => rfl
          | false => exact absurd (hu1 hfat) hm
      | panic => rw [hf] at h; cases h
      | fuel => rw [hf] at h; cases h
  cases k with
  | zero => trivial
  | succ k =>
    have h1 := hs w hw
    have h2 := hg w hw
    simp only [occurLoopS]
    cases hf : f w with
    | ok w1 =>
      rw [hf] at h1
      dsimp only
      split
      · rw [if_neg (by omega)]; trivial
      · rename_i hlt
        rcases hc with hc | hc
        · exact absurd hc (by omega)
        · cases hr : occurLoopS f lo up msg k (0 + 1) w1 with
          | err e w' => intro he; rw [later hc k (0 + 1) w1 h1 (by omega) e w' hr] at he; cases he
          | _ => trivial
    | err e w1 =>
      rw [hf] at h2
      dsimp only
      split
      · rename_i hm
        obtain rfl := h2 (isMismatch_nonfatal hm)
        split
        · exact fun _ => rfl
        · trivial
      · exact h2
    | _ => trivial

end

end Cddl
