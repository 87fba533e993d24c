import Verif.Spec.Frugal
import Verif.Model.Api
import Verif.Proofs.Cost
import Verif.Proofs.VMap

/-! # Where every value is looked into once, validation takes few calls -/

namespace Cddl

/-! ## Shapes -/

theorem Shape.not_both {a b : Shape} (h : a.apart b = true) {v : Value} (ha : a.fits v = true) : b.fits v = false := by
  cases a with
  | arr p =>
    cases b with
    | map q => cases v <;> cases p <;> first | (cases q <;> rfl) | (simp [Shape.fits] at ha)
    | arr q =>
      cases p <;> cases q <;> simp only [Shape.apart] at h <;> try contradiction
      rename_i l l'
      cases v <;> simp only [Shape.fits] at ha ⊢ <;> try contradiction
      rename_i xs
      cases xs with
      | nil => rfl
      | cons x xs =>
        simp only [Shape.fits] at ha ⊢
        rw [(Value.beq_iff _ _).mp ha]
        simpa using h
  | map p =>
    cases b with
    | arr q => cases v <;> cases p <;> first | (cases q <;> rfl) | (simp [Shape.fits] at ha)
    | map q =>
      cases p <;> cases q <;> simp only [Shape.apart] at h <;> try contradiction
      rename_i l l'
      cases v <;> simp only [Shape.fits] at ha ⊢ <;> try contradiction
      rename_i m
      simp only [Bool.and_eq_true, Bool.not_eq_true'] at h
      rw [← (Value.beq_iff _ _).mp h.1]
      cases hg : VMap.get m l.1.toValue with
      | none => rfl
      | some x =>
        rw [hg] at ha
        dsimp only at ha ⊢
        rw [(Value.beq_iff _ _).mp ha]
        exact h.2

/-- The value has one of the shapes. -/
def fitsAny (S : List Shape) (v : Value) : Bool := S.any fun s => s.fits v

theorem apartAll_fits {S T : List Shape} (h : apartAll S T = true) {v : Value} (hs : fitsAny S v = true) : fitsAny T v = false := by
  rw [fitsAny, List.any_eq_true] at hs
  obtain ⟨a, ha, hv⟩ := hs
  rw [fitsAny, List.any_eq_false]
  intro b hb
  have hab := List.all_eq_true.mp (List.all_eq_true.mp h a ha) b hb
  simp [Shape.not_both hab hv]

theorem apartAll_append_left {S T U : List Shape} : apartAll (S ++ T) U = (apartAll S U && apartAll T U) := by
  simp [apartAll, List.all_append]

theorem apartAll_append_right {S T U : List Shape} : apartAll S (T ++ U) = (apartAll S T && apartAll S U) := by
  induction S with
  | nil => rfl
  | cons a S ih =>
    simp only [apartAll, List.all_cons, List.all_append] at ih ⊢
    rw [ih]
    cases (T.all fun b => a.apart b) <;> cases (U.all fun b => a.apart b) <;> simp

theorem fitsAny_append {S T : List Shape} {v : Value} : fitsAny (S ++ T) v = (fitsAny S v || fitsAny T v) := by
  simp [fitsAny, List.any_append]

/-! ## Work -/

mutual
/-- What looking into a value, and into all values in it, may take, up to a factor. -/
def Value.work : Value → Nat
  | .array xs => 1 + Value.works xs
  | .map m => (1 + m.length) * (1 + m.length) + Value.pairWorks m
  | _ => 0
/-- For the elements of an array. -/
def Value.works : List Value → Nat
  | [] => 0
  | x :: xs => 1 + x.work + Value.works xs
/-- For the values of a map. -/
def Value.pairWorks : List (Value × Value) → Nat
  | [] => 0
  | (_, v) :: t => v.work + Value.pairWorks t
end

section
variable (O : String → List Shape) (F : String → Nat) (W : Nat)

/-- What looking into a value of one of the shapes takes. -/
def gain (S : List Shape) (x : Value) : Nat := if fitsAny S x then W * x.work else 0

/-- What is kept for looking into a value that has none of the shapes. -/
def left (P : List Shape) (x : Value) : Nat := if fitsAny P x then 0 else W * x.work

/-- What is kept for the elements of an array. -/
def potA (P : List Shape) : List Value → Nat
  | [] => 0
  | x :: xs => W + left W P x + potA P xs

/-- What is kept for the pairs of a map of at most `N` pairs. -/
def potM (P : List Shape) (N : Nat) : VMap → Nat
  | [] => 0
  | (_, v) :: t => W * (1 + N) + left W P v + potM P N t

/-- What looking into the first element takes. -/
def gainHead (S : List Shape) : List Value → Nat
  | [] => 0
  | x :: _ => gain W S x

variable {W}

theorem gain_le_left {P S : List Shape} (h : apartAll P S = true) (x : Value) : gain W S x ≤ left W P x := by
  unfold gain left
  cases hp : fitsAny P x with
  | true => simp [apartAll_fits h hp]
  | false => simp only [Bool.false_eq_true, if_false]; split <;> omega

theorem gain_left {P S : List Shape} (h : apartAll P S = true) (x : Value) : gain W S x + left W (P ++ S) x ≤ left W P x := by
  unfold gain left
  rw [fitsAny_append]
  cases hp : fitsAny P x with
  | true => simp [apartAll_fits h hp]
  | false => cases fitsAny S x <;> simp

theorem left_append (P S : List Shape) (x : Value) : left W (P ++ S) x ≤ left W P x := by
  unfold left
  rw [fitsAny_append]
  cases fitsAny P x <;> cases fitsAny S x <;> simp

theorem potA_append (P S : List Shape) : ∀ l, potA W (P ++ S) l ≤ potA W P l
  | [] => Nat.le_refl _
  | x :: xs => by
    have := left_append (W := W) P S x
    have := potA_append P S xs
    simp only [potA]
    omega

theorem potM_append (P S : List Shape) (N : Nat) : ∀ l, potM W (P ++ S) N l ≤ potM W P N l
  | [] => Nat.le_refl _
  | (_, x) :: xs => by
    have := left_append (W := W) P S x
    have := potM_append P S N xs
    simp only [potM]
    omega

theorem gainHead_le {P S : List Shape} (h : apartAll P S = true) : ∀ l, gainHead W S l ≤ potA W P l
  | [] => Nat.zero_le _
  | x :: xs => by
    have := gain_le_left (W := W) h x
    simp only [gainHead, potA]
    omega

theorem gainHead_pot {P S : List Shape} (h : apartAll P S = true) : ∀ l, gainHead W S l + potA W (P ++ S) l ≤ potA W P l
  | [] => Nat.le_refl _
  | x :: xs => by
    have := gain_left (W := W) h x
    have := potA_append (W := W) P S xs
    simp only [gainHead, potA]
    omega

theorem gain_le_potM {P S : List Shape} (h : apartAll P S = true) {N : Nat} {k x : Value} :
    ∀ {l : VMap}, (k, x) ∈ l → gain W S x ≤ potM W P N l
  | (_, y) :: xs, hm => by
    simp only [potM]
    rcases List.mem_cons.mp hm with hm | hm
    · cases hm
      have := gain_le_left (W := W) h x
      omega
    · have := gain_le_potM h (N := N) hm
      omega

theorem gain_potM {P S : List Shape} (h : apartAll P S = true) {N : Nat} {k x : Value} :
    ∀ {l : VMap}, (k, x) ∈ l → gain W S x + potM W (P ++ S) N l ≤ potM W P N l
  | (_, y) :: xs, hm => by
    simp only [potM]
    rcases List.mem_cons.mp hm with hm | hm
    · cases hm
      have := gain_left (W := W) h x
      have := potM_append (W := W) P S N xs
      omega
    · have := gain_potM h (N := N) hm
      have := left_append (W := W) P S y
      omega

theorem potA_nil : ∀ l, potA W [] l = W * Value.works l
  | [] => rfl
  | x :: xs => by
    rw [potA, potA_nil xs, Value.works, Nat.mul_add, Nat.mul_add, Nat.mul_one]
    rfl

theorem potM_nil (N : Nat) : ∀ l : VMap, potM W [] N l = l.length * (W * (1 + N)) + W * Value.pairWorks l
  | [] => by simp [potM, Value.pairWorks]
  | (_, x) :: xs => by
    have hl : left W [] x = W * x.work := rfl
    rw [potM, potM_nil N xs, Value.pairWorks, hl, List.length_cons, Nat.add_mul, Nat.one_mul, Nat.mul_add W x.work]
    omega

/-- Taking a pair out. -/
theorem potM_without (P : List Shape) (N : Nat) {k x : Value} : ∀ {m : VMap}, VMap.PW m → (k, x) ∈ m →
    W * (1 + N) + left W P x + potM W P N (m.without k) ≤ potM W P N m
  | (k', y) :: m, hp, hm => by
    by_cases hk : k' = k
    · subst hk
      have hx : x = y := hp.key_unique hm (by simp)
      subst hx
      have hf : VMap.without ((k', x) :: m) k' = m := by
        have h0 : ∀ v, (k', v) ∉ m := fun v hv => Value.cmp_lt_irrefl k' (VMap.PW.head hp hv)
        rw [← VMap.without_eq_self h0]
        simp [VMap.without]
      rw [hf]
      simp [potM]
    · have hm' : (k, x) ∈ m := by
        rcases List.mem_cons.mp hm with hm | hm
        · cases hm
          exact absurd rfl hk
        · exact hm
      have hf : VMap.without ((k', y) :: m) k = (k', y) :: VMap.without m k := by simp [VMap.without, hk]
      rw [hf]
      have := potM_without P N hp.tail hm'
      simp only [potM]
      omega

variable (W)

/-! ## The bounds -/

/-- A scope without parameters. -/
def Ctx.bare : Ctx → Prop
  | .root _ => True
  | .frame g _ _ => g = []

/-- What is known behind an entry, or a member: the values it has looked into in vain have its shapes. -/
def Node.after (p : Standing) (n : Node) (P : List Shape) : List Shape := if n.soft p then P ++ n.shapes O else P

/-- A working map whose keys are sorted, and whose values are. -/
def WMap.fine (N : Nat) (w : WMap) : Prop := VMap.PW w.map ∧ Value.WFMap w.map ∧ w.map.length ≤ N

/-- The bounds on the calls `x` of the functions `a`. -/
structure Bounded (a : Rec) (x : Costs) : Prop where
  lit : ∀ l v c, x.val v (.literal l) c ≤ 1 ∧ (a.val v (.literal l) c = .ok () → v = l.toValue)
  arrLit : ∀ m l w c, m.firstLit = some l → x.arr m w c ≤ 2 ∧ ∀ w', a.arr m w c = .ok w' → ∃ t, w.array = l.toValue :: t
  mapLit : ∀ m k l w c, m.tagLit = some (k, l) → x.map m w c ≤ 2 ∧
    ∀ w', a.map m w c = .ok w' → VMap.get w.map k.toValue = some l.toValue
  deref : ∀ n c, n.unnamed = true → x.deref n c ≤ 1
  chase : ∀ n c, n.unnamed = true → x.chase n c ≤ 1
  val : ∀ v n c, c.bare → v.WF → n.frugal O F W .type = true → x.val v n c + 1 ≤ n.flat F + gain W (n.shapes O) v
  item : ∀ n (w : WArr) c, c.bare → Value.WFArr w.array → n.frugal O F W .item = true →
    x.arr n w c ≤ n.flat F + gainHead W (n.shapes O) w.array ∧
    (∀ w', a.arr n w c = .ok w' → ∃ h, w.array = h :: w'.array) ∧ ∀ e w', a.arr n w c = .err e w' → w' = w
  entry : ∀ n (w : WArr) c P, c.bare → Value.WFArr w.array → n.frugal O F W .entry = true → n.flat F ≤ W →
    apartAll P (n.shapes O) = true → x.arr n w c ≤ n.flat F + potA W P w.array ∧
    ∀ w', a.arr n w c = .ok w' → Value.WFArr w'.array ∧
      x.arr n w c + potA W (n.after O .entry P) w'.array ≤ n.flat F + potA W P w.array
  pair : ∀ k t cut (w : WMap) c N, c.bare → w.fine N → (Node.keyValue k t cut).frugal O F W .pair = true →
    (x.map (.keyValue k t cut) w c ≤ (Node.keyValue k t cut).flat F * (1 + N) ∨ ∃ y z, (y, z) ∈ w.map ∧
      x.map (.keyValue k t cut) w c ≤ (Node.keyValue k t cut).flat F * (1 + N) + gain W (t.shapes O) z) ∧
    (∀ w', a.map (.keyValue k t cut) w c = .ok w' → ∃ y z, (y, z) ∈ w.map ∧ w'.map = w.map.without y ∧
      x.map (.keyValue k t cut) w c ≤ (Node.keyValue k t cut).flat F * (1 + N) + gain W (t.shapes O) z) ∧
    ∀ e w', a.map (.keyValue k t cut) w c = .err e w' → w' = w ∧
      (x.map (.keyValue k t cut) w c ≤ (Node.keyValue k t cut).flat F * (1 + N) ∨ (cut = true → e.isMismatch = false))
  member : ∀ n (w : WMap) c P N, c.bare → w.fine N → n.frugal O F W .member = true → n.flat F ≤ W →
    apartAll P (n.shapes O) = true → x.map n w c ≤ n.flat F * (1 + N) + potM W P N w.map ∧
    ∀ w', a.map n w c = .ok w' → w'.fine N ∧
      x.map n w c + potM W (n.after O .member P) N w'.map ≤ n.flat F * (1 + N) + potM W P N w.map

/-- The rules pass the test. -/
def FrugalRules (env : Env) : Prop := ∀ s d, env.lookup s = .ok d →
  d.node.frugal O F W .type = true ∧ d.node.flat F ≤ F s ∧ ∀ h ∈ d.node.shapes O, h ∈ O s

variable {O F W}

theorem Node.flat_pos (n : Node) : 1 ≤ n.flat F := by
  cases n <;> simp only [Node.flat] <;> omega

theorem Node.type_item {n : Node} (h : n.frugal O F W .type = true) : n.frugal O F W .item = true := by
  cases n <;> simp only [Node.frugal] at h ⊢ <;> first | exact h | cases h

theorem Ctx.bare_lookup {env : Env} {c c' : Ctx} {s : String} {n : Node} (hc : c.bare)
    (h : c.lookupRule env s [] = .ok (n, c')) : ∃ d, env.lookup s = .ok d ∧ n = d.node ∧ c'.bare := by
  have hv : ((env.lookup s).bind fun rd => (c.derive rd []).bind fun c' => Except.ok (rd.node, c')) = .ok (n, c') := by
    cases c with
    | root d => exact h
    | frame g past d =>
      have hg : g = [] := hc
      subst hg
      exact h
  cases hl : env.lookup s with
  | error e => rw [hl] at hv; cases hv
  | ok d =>
    rw [hl] at hv
    unfold Ctx.derive at hv
    by_cases hp : d.params.length ≠ ([] : List Node).length
    · simp only [Except.bind, if_pos hp] at hv
      cases hv
    · simp only [Except.bind, if_neg hp] at hv
      cases hi : c.incDepth with
      | error e => rw [hi] at hv; cases hv
      | ok k =>
        rw [hi] at hv
        cases hv
        exact ⟨d, rfl, rfl, by simp [Ctx.bare]⟩

theorem gain_append {S T : List Shape} (h : apartAll S T = true) (v : Value) : gain W (S ++ T) v = gain W S v + gain W T v := by
  unfold gain
  rw [fitsAny_append]
  cases hs : fitsAny S v with
  | true => simp [apartAll_fits h hs]
  | false => simp

theorem gain_mono {S T : List Shape} (h : ∀ a ∈ S, a ∈ T) (v : Value) : gain W S v ≤ gain W T v := by
  unfold gain
  cases hs : fitsAny S v with
  | false => simp
  | true =>
    have ht : fitsAny T v = true := by
      rw [fitsAny, List.any_eq_true] at hs ⊢
      obtain ⟨a, ha, hv⟩ := hs
      exact ⟨a, h a ha, hv⟩
    simp [ht]

theorem choiceLoopN_le {f : Node → Res Unit} {g : Node → Nat} {v : Value} :
    ∀ {l : List Node}, (∀ n, n.frugal O F W .type = true → g n + 1 ≤ n.flat F + gain W (n.shapes O) v) →
    Node.frugalOptions O F W l = true → choiceLoopN f g l ≤ Node.flats F l + gain W (Node.shapesL O l) v
  | [], _, _ => Nat.zero_le _
  | n :: ns, hg, hl => by
    simp only [Node.frugalOptions, Bool.and_eq_true] at hl
    have h1 := hg n hl.1.1
    have h2 := choiceLoopN_le (f := f) hg hl.2
    simp only [choiceLoopN, Node.flats, Node.shapesL, gain_append hl.1.2]
    split
    · split <;> omega
    · omega

theorem choiceLoopSN_le {f : Node → WArr → SRes WArr} {g : Node → WArr → Nat} {w : WArr} :
    ∀ {l : List Node}, (∀ n, n.frugal O F W .item = true → g n w ≤ n.flat F + gainHead W (n.shapes O) w.array ∧
      (∀ w', f n w = .ok w' → ∃ h, w.array = h :: w'.array) ∧ ∀ e w', f n w = .err e w' → w' = w) →
    Node.frugalOptions O F W l = true →
    choiceLoopSN f g Err.isFatal l w ≤ Node.flats F l + gainHead W (Node.shapesL O l) w.array ∧
      (∀ msg w', choiceLoopS f Err.isFatal msg l w = .ok w' → ∃ h, w.array = h :: w'.array) ∧
      ∀ msg e w', choiceLoopS f Err.isFatal msg l w = .err e w' → w' = w
  | [], _, _ => ⟨Nat.zero_le _, fun _ _ h => (nomatch h), fun _ _ _ h => by cases h; rfl⟩
  | n :: ns, hg, hl => by
    simp only [Node.frugalOptions, Bool.and_eq_true] at hl
    obtain ⟨h1, h1o, h1e⟩ := hg n (Node.type_item hl.1.1)
    obtain ⟨h2, h2o, h2e⟩ := choiceLoopSN_le (f := f) hg hl.2
    have ha : gainHead W (n.shapes O ++ Node.shapesL O ns) w.array =
        gainHead W (n.shapes O) w.array + gainHead W (Node.shapesL O ns) w.array := by
      cases w.array with
      | nil => rfl
      | cons x xs => exact gain_append hl.1.2 x
    simp only [choiceLoopSN, choiceLoopS, Node.flats, Node.shapesL, ha]
    cases hf : f n w with
    | err e w' =>
      cases h1e e w' hf
      dsimp only
      cases he : e.isFatal with
      | true => exact ⟨by simp only [if_true]; omega, fun _ _ h => (nomatch h), fun _ _ _ h => by cases h; rfl⟩
      | false => exact ⟨by simp only [Bool.false_eq_true, if_false]; omega, h2o, h2e⟩
    | ok w' => exact ⟨by dsimp only; omega, fun _ w'' h => h1o w'' (by rw [hf]; exact h), fun _ _ _ h => (nomatch h)⟩
    | panic => exact ⟨by dsimp only; omega, fun _ _ h => (nomatch h), fun _ _ _ h => (nomatch h)⟩
    | fuel => exact ⟨by dsimp only; omega, fun _ _ h => (nomatch h), fun _ _ _ h => (nomatch h)⟩

/-- Repeating an entry of an array. -/
theorem occurLoopSN_arr {f : WArr → SRes WArr} {g : WArr → Nat} {fl up : Nat} {S P : List Shape} (hS : apartAll P S = true)
    (hfl : fl ≤ W)
    (hg : ∀ w, Value.WFArr w.array → g w ≤ fl + gainHead W S w.array ∧
      (∀ w', f w = .ok w' → ∃ h, w.array = h :: w'.array) ∧ ∀ e w', f w = .err e w' → w' = w) :
    ∀ k count w, Value.WFArr w.array → occurLoopSN f g up k count w ≤ fl + potA W P w.array ∧
      ∀ lo msg w', occurLoopS f lo up msg k count w = .ok w' → Value.WFArr w'.array ∧
        occurLoopSN f g up k count w + potA W (P ++ S) w'.array ≤ fl + potA W P w.array
  | 0, _, _, _ => ⟨Nat.zero_le _, fun _ _ _ h => nomatch h⟩
  | k + 1, count, w, hw => by
    obtain ⟨h1, h1o, h1e⟩ := hg w hw
    have h2 := gainHead_le (W := W) hS w.array
    simp only [occurLoopSN, occurLoopS]
    cases hf : f w with
    | ok w1 =>
      obtain ⟨x, hx⟩ := h1o w1 hf
      have hw1 : Value.WFArr w1.array := by
        rw [hx, Value.WFArr] at hw
        exact hw.2
      have h3 : g w ≤ W + left W P x := by
        rw [hx, gainHead] at h1
        have := gain_le_left (W := W) hS x
        omega
      have h4 : potA W P w.array = W + left W P x + potA W P w1.array := by rw [hx, potA]
      dsimp only
      by_cases hc : count + 1 ≥ up
      · simp only [hc, if_true]
        refine ⟨by omega, fun lo msg w' h => ?_⟩
        split at h
        · cases h
        · cases h
          have := potA_append (W := W) P S w1.array
          exact ⟨hw1, by omega⟩
      · simp only [hc, if_false]
        obtain ⟨h5, h6⟩ := occurLoopSN_arr (up := up) hS hfl hg k (count + 1) w1 hw1
        refine ⟨by omega, fun lo msg w' h => ?_⟩
        obtain ⟨h7, h8⟩ := h6 lo msg w' h
        exact ⟨h7, by omega⟩
    | err e w1 =>
      cases h1e e w1 hf
      dsimp only
      refine ⟨by omega, fun lo msg w' h => ?_⟩
      have h9 := gainHead_pot (W := W) hS w.array
      split at h
      · split at h
        · cases h
        · cases h
          exact ⟨hw, by omega⟩
      · cases h
    | panic => exact ⟨by dsimp only; omega, fun _ _ _ h => nomatch h⟩
    | fuel => exact ⟨by dsimp only; omega, fun _ _ _ h => nomatch h⟩

/-- The entries of an array. -/
theorem seqLoopSN_arr {a : Rec} {x : Costs} (hB : Bounded O F W a x) {c : Ctx} (hc : c.bare) :
    ∀ (ms : List Node) (w : WArr) (P : List Shape), Value.WFArr w.array → Node.frugalAll O F W .entry ms = true →
      Node.flats F ms ≤ W → apartAll P (Node.shapesL O ms) = true →
      arraySeqN a x ms w c ≤ Node.flats F ms + potA W P w.array
  | [], _, _, _, _, _, _ => Nat.zero_le _
  | m :: ms, w, P, hw, hm, hfl, hp => by
    simp only [Node.frugalAll, Bool.and_eq_true, Bool.or_eq_true, Bool.not_eq_true'] at hm
    simp only [Node.shapesL, apartAll_append_right, Bool.and_eq_true] at hp
    simp only [Node.flats] at hfl ⊢
    obtain ⟨h1, h2⟩ := hB.entry m w c P hc hw hm.1.1 (by omega) hp.1
    simp only [arraySeqN, seqLoopSN]
    cases hf : a.arr m w c with
    | ok w' =>
      obtain ⟨h3, h4⟩ := h2 w' hf
      have hP : apartAll (m.after O .entry P) (Node.shapesL O ms) = true := by
        unfold Node.after
        split
        · rename_i hs
          rw [apartAll_append_left, hp.2]
          rcases hm.1.2 with h | h
          · rw [hs] at h; cases h
          · rw [h]; rfl
        · exact hp.2
      have h5 := seqLoopSN_arr hB hc ms w' _ h3 hm.2 (by omega) hP
      simp only [arraySeqN] at h5
      dsimp only
      omega
    | _ => dsimp only; omega

theorem WMap.fine_without {N : Nat} {w w' : WMap} (h : w.fine N) {y : Value} (hw : w'.map = w.map.without y) : w'.fine N := by
  obtain ⟨h1, h2, h3⟩ := h
  refine ⟨hw ▸ h1.without y, ?_, ?_⟩
  · rw [hw, Value.WFMap_iff]
    intro p hp
    exact (Value.WFMap_iff _).mp h2 p (VMap.mem_without.mp hp).1
  · rw [hw]
    exact Nat.le_trans (List.length_filter_le _ _) h3

/-- Repeating a member of a map. -/
theorem occurLoopSN_map {f : WMap → SRes WMap} {g : WMap → Nat} {fl up N : Nat} {S P : List Shape} {cut : Bool}
    (hS : apartAll P S = true) (hfl : fl ≤ W)
    (hg : ∀ w : WMap, w.fine N →
      (g w ≤ fl * (1 + N) ∨ ∃ y z, (y, z) ∈ w.map ∧ g w ≤ fl * (1 + N) + gain W S z) ∧
      (∀ w', f w = .ok w' → ∃ y z, (y, z) ∈ w.map ∧ w'.map = w.map.without y ∧ g w ≤ fl * (1 + N) + gain W S z) ∧
      ∀ e w', f w = .err e w' → w' = w ∧ (g w ≤ fl * (1 + N) ∨ (cut = true → e.isMismatch = false))) :
    ∀ k count (w : WMap), w.fine N → occurLoopSN f g up k count w ≤ fl * (1 + N) + potM W P N w.map ∧
      ∀ lo msg w', occurLoopS f lo up msg k count w = .ok w' → w'.fine N ∧
        occurLoopSN f g up k count w + potM W (if cut then P else P ++ S) N w'.map ≤ fl * (1 + N) + potM W P N w.map
  | 0, _, _, _ => ⟨Nat.zero_le _, fun _ _ _ h => nomatch h⟩
  | k + 1, count, w, hw => by
    obtain ⟨h1, h1o, h1e⟩ := hg w hw
    have h2 : g w ≤ fl * (1 + N) + potM W P N w.map := by
      rcases h1 with h1 | ⟨y, z, hm, h1⟩
      · omega
      · have := gain_le_potM (W := W) hS (N := N) hm
        omega
    have hP : ∀ m, potM W (if cut then P else P ++ S) N m ≤ potM W P N m := by
      intro m
      cases cut
      · exact potM_append P S N m
      · exact Nat.le_refl _
    simp only [occurLoopSN, occurLoopS]
    cases hf : f w with
    | ok w1 =>
      obtain ⟨y, z, hm, hx, h3⟩ := h1o w1 hf
      have hw1 := WMap.fine_without hw hx
      have h4 := potM_without (W := W) P N hw.1 hm
      rw [← hx] at h4
      have h5 := gain_le_left (W := W) hS z
      have h6 : fl * (1 + N) ≤ W * (1 + N) := Nat.mul_le_mul_right _ hfl
      dsimp only
      by_cases hc : count + 1 ≥ up
      · simp only [hc, if_true]
        refine ⟨by omega, fun lo msg w' h => ?_⟩
        split at h
        · cases h
        · cases h
          have := hP w1.map
          exact ⟨hw1, by omega⟩
      · simp only [hc, if_false]
        obtain ⟨h7, h8⟩ := occurLoopSN_map (up := up) hS hfl hg k (count + 1) w1 hw1
        refine ⟨by omega, fun lo msg w' h => ?_⟩
        obtain ⟨h9, h10⟩ := h8 lo msg w' h
        exact ⟨h9, by omega⟩
    | err e w1 =>
      obtain ⟨hw', h1e⟩ := h1e e w1 hf
      subst hw'
      dsimp only
      refine ⟨by omega, fun lo msg w' h => ?_⟩
      split at h
      · rename_i he
        split at h
        · cases h
        · cases h
          refine ⟨hw, ?_⟩
          rcases h1e with h1e | h1e
          · have := hP w1.map
            omega
          · have hcut : cut = false := by
              cases cut
              · rfl
              · rw [he] at h1e; cases h1e rfl
            subst hcut
            simp only [Bool.false_eq_true, if_false]
            rcases h1 with h1 | ⟨y, z, hm, h1⟩
            · have := potM_append (W := W) P S N w1.map
              omega
            · have := gain_potM (W := W) hS (N := N) hm
              omega
      · cases h
    | panic => exact ⟨by dsimp only; omega, fun _ _ _ h => nomatch h⟩
    | fuel => exact ⟨by dsimp only; omega, fun _ _ _ h => nomatch h⟩

/-- The members of a map. -/
theorem seqLoopSN_map {a : Rec} {x : Costs} (hB : Bounded O F W a x) {c : Ctx} (hc : c.bare) {N : Nat} :
    ∀ (ms : List Node) (w : WMap) (P : List Shape), w.fine N → Node.frugalAll O F W .member ms = true →
      Node.flats F ms ≤ W → apartAll P (Node.shapesL O ms) = true →
      mapSeqN a x ms w c ≤ Node.flats F ms * (1 + N) + potM W P N w.map
  | [], _, _, _, _, _, _ => Nat.zero_le _
  | m :: ms, w, P, hw, hm, hfl, hp => by
    simp only [Node.frugalAll, Bool.and_eq_true, Bool.or_eq_true, Bool.not_eq_true'] at hm
    simp only [Node.shapesL, apartAll_append_right, Bool.and_eq_true] at hp
    simp only [Node.flats] at hfl ⊢
    obtain ⟨h1, h2⟩ := hB.member m w c P N hc hw hm.1.1 (by omega) hp.1
    simp only [mapSeqN, seqLoopSN]
    rw [Nat.add_mul]
    cases hf : a.map m w c with
    | ok w' =>
      obtain ⟨h3, h4⟩ := h2 w' hf
      have hP : apartAll (m.after O .member P) (Node.shapesL O ms) = true := by
        unfold Node.after
        split
        · rename_i hs
          rw [apartAll_append_left, hp.2]
          rcases hm.1.2 with h | h
          · rw [hs] at h; cases h
          · rw [h]; rfl
        · exact hp.2
      have h5 := seqLoopSN_map hB hc ms w' _ h3 hm.2 (by omega) hP
      simp only [mapSeqN] at h5
      dsimp only
      omega
    | _ => dsimp only; omega

/-- Looking for a key. -/
theorem mapSearchLoopN_le {f : Value → Res Unit} {g : Value → Nat} {b : Nat} :
    ∀ {m : VMap}, (∀ k ∈ m, g k.1 ≤ b) → mapSearchLoopN f g m ≤ m.length * b
  | [], _ => Nat.zero_le _
  | (k, v) :: m, h => by
    have h1 : g k ≤ b := h (k, v) (by simp)
    have h2 := mapSearchLoopN_le (f := f) (m := m) fun p hp => h p (by simp [hp])
    simp only [mapSearchLoopN, List.length_cons, Nat.add_mul, Nat.one_mul]
    split <;> omega

theorem mapSearchLoop_mem {f : Value → Res Unit} {msg : String} {p : Value × Value} :
    ∀ {m : VMap}, mapSearchLoop f msg m = .ok p → p ∈ m
  | [], h => nomatch h
  | (k, v) :: m, h => by
    simp only [mapSearchLoop] at h
    split at h
    · cases h; simp
    · exact List.mem_cons_of_mem _ (mapSearchLoop_mem h)
    · cases h
    · cases h

/-! ## One step -/

theorem bounded_bot : Bounded O F W Rec.bot Costs.zero where
  lit _ _ _ := ⟨Nat.zero_le _, fun h => nomatch h⟩
  arrLit _ _ _ _ _ := ⟨Nat.zero_le _, fun _ h => nomatch h⟩
  mapLit _ _ _ _ _ _ := ⟨Nat.zero_le _, fun _ h => nomatch h⟩
  deref _ _ _ := Nat.zero_le _
  chase _ _ _ := Nat.zero_le _
  val _ n _ _ _ _ := by
    have := n.flat_pos (F := F)
    show 0 + 1 ≤ _
    omega
  item _ _ _ _ _ _ := ⟨Nat.zero_le _, fun _ h => (nomatch h), fun _ _ h => nomatch h⟩
  entry _ _ _ _ _ _ _ _ _ := ⟨Nat.zero_le _, fun _ h => nomatch h⟩
  pair _ _ _ _ _ _ _ _ _ := ⟨.inl (Nat.zero_le _), fun _ h => (nomatch h), fun _ _ h => nomatch h⟩
  member _ _ _ _ _ _ _ _ _ _ := ⟨Nat.zero_le _, fun _ h => nomatch h⟩

section Step
variable {env : Env} {a : Rec} {x : Costs} (hE : FrugalRules O F W env) (hB : Bounded O F W a x)
include hB

theorem arrayValueN_lit (l : Literal) (w : WArr) (c : Ctx) : arrayValueN x (.literal l) w c ≤ 1 ∧
    ∀ w', validateArrayValue env a (.literal l) w c = .ok w' → ∃ t, w.array = l.toValue :: t := by
  unfold arrayValueN validateArrayValue
  cases hw : w.array with
  | nil => exact ⟨Nat.zero_le _, fun _ h => nomatch h⟩
  | cons v t =>
    dsimp only
    obtain ⟨h1, h2⟩ := hB.lit l v c
    refine ⟨h1, fun w' h => ?_⟩
    split at h
    · rename_i hv
      exact ⟨t, by rw [h2 hv]⟩
    · rename_i r hv
      cases hr : a.val v (.literal l) c with
      | ok u => exact absurd hr hv
      | _ => rw [hr] at h; cases h

theorem step_arrLit (m : Node) (l : Literal) (w : WArr) (c : Ctx) (hm : m.firstLit = some l) :
    arrN env a x m w c ≤ 2 ∧ ∀ w', arrBody env a m w c = .ok w' → ∃ t, w.array = l.toValue :: t := by
  have h := arrayValueN_lit (env := env) hB l w c
  unfold Node.firstLit at hm
  split at hm
  · cases hm
    exact ⟨by simp only [arrN]; omega, h.2⟩
  · cases hm
    exact ⟨by simp only [arrN]; omega, h.2⟩
  · cases hm

theorem step_mapLit (m : Node) (k l : Literal) (w : WMap) (c : Ctx) (hm : m.tagLit = some (k, l)) :
    mapN env a x m w c ≤ 2 ∧ ∀ w', mapBody env a m w c = .ok w' → VMap.get w.map k.toValue = some l.toValue := by
  unfold Node.tagLit at hm
  split at hm
  · cases hm
    simp only [mapN, mapBody, mapKeyvalueN, mapKeyN, validateMapKeyvalue, validateMapKey, mapSearchLiteral]
    cases hg : VMap.get w.map k.toValue with
    | none => exact ⟨by simp, fun _ h => nomatch h⟩
    | some v =>
      dsimp only
      obtain ⟨h1, h2⟩ := hB.lit l v c
      refine ⟨by omega, fun w' h => ?_⟩
      cases hv : a.val v (.literal l) c with
      | ok u => rw [h2 hv]
      | err e =>
        rw [hv] at h
        dsimp only at h
        split at h <;> cases h
      | _ => rw [hv] at h; cases h
  · cases hm

theorem step_array (ms : List Node) (v : Value) (c : Ctx) (hc : c.bare) (hv : v.WF)
    (hm : Node.frugalAll O F W .entry ms = true) (hfl : Node.flats F ms ≤ W) :
    valN env a x v (.array ms) c + 1 ≤ 4 + gain W ((Node.array ms).shapes O) v := by
  cases v <;> simp only [valN] <;> try omega
  rename_i xs
  have h1 := seqLoopSN_arr hB hc ms (WArr.new xs) [] hv hm hfl rfl
  rw [potA_nil] at h1
  have hw : W * (Value.array xs).work = W + W * Value.works xs := by rw [Value.work, Nat.mul_add, Nat.mul_one]
  simp only [WArr.new] at h1
  cases hf : fitsAny ((Node.array ms).shapes O) (.array xs) with
  | true =>
    simp only [gain, hf, if_true, WArr.new]
    omega
  | false =>
    simp only [gain, hf, WArr.new]
    cases ms with
    | nil => simp [Node.shapes, fitsAny, Shape.fits] at hf
    | cons m ms =>
      simp only [Node.shapes, fitsAny, List.any_cons, List.any_nil, Bool.or_false] at hf
      cases hl : m.firstLit with
      | none => rw [hl] at hf; cases hf
      | some l =>
        rw [hl] at hf
        obtain ⟨h2, h3⟩ := hB.arrLit m l ⟨xs, []⟩ c hl
        simp only [arraySeqN, seqLoopSN]
        split
        · rename_i w' hw'
          obtain ⟨t, ht⟩ := h3 w' hw'
          dsimp only at ht
          subst ht
          rw [Shape.fits, (Value.beq_iff _ _).mpr rfl] at hf
          cases hf
        · simp only [Bool.false_eq_true, if_false]
          omega

theorem step_map (ms : List Node) (v : Value) (c : Ctx) (hc : c.bare) (hv : v.WF)
    (hm : Node.frugalAll O F W .member ms = true) (hfl : Node.flats F ms ≤ W) :
    valN env a x v (.map ms) c + 1 ≤ 4 + gain W ((Node.map ms).shapes O) v := by
  cases v <;> simp only [valN] <;> try omega
  rename_i m
  have hfine : (WMap.new m).fine m.length := ⟨(VMap.sorted_iff m).mp hv.1, hv.2, Nat.le_refl _⟩
  have h1 := seqLoopSN_map hB hc ms (WMap.new m) [] hfine hm hfl rfl
  rw [potM_nil] at h1
  have h0 : Node.flats F ms * (1 + m.length) ≤ W * (1 + m.length) := Nat.mul_le_mul_right _ hfl
  have hw : W * (Value.map m).work = W * (1 + m.length) + m.length * (W * (1 + m.length)) + W * Value.pairWorks m := by
    rw [Value.work, Nat.mul_add, ← Nat.mul_assoc, Nat.mul_add, Nat.mul_one, Nat.mul_comm (W * (1 + m.length)) m.length]
  simp only [WMap.new] at h1
  cases hf : fitsAny ((Node.map ms).shapes O) (.map m) with
  | true =>
    simp only [gain, hf, if_true, WMap.new]
    omega
  | false =>
    simp only [gain, hf, WMap.new]
    cases ms with
    | nil => simp [Node.shapes, fitsAny, Shape.fits] at hf
    | cons n ms =>
      simp only [Node.shapes, fitsAny, List.any_cons, List.any_nil, Bool.or_false] at hf
      cases hl : n.tagLit with
      | none => rw [hl] at hf; cases hf
      | some p =>
        obtain ⟨k, l⟩ := p
        rw [hl] at hf
        obtain ⟨h2, h3⟩ := hB.mapLit n k l ⟨m, []⟩ c hl
        simp only [mapSeqN, seqLoopSN]
        split
        · rename_i w' hw'
          have ht := h3 w' hw'
          dsimp only at ht
          rw [Shape.fits, ht] at hf
          dsimp only at hf
          rw [(Value.beq_iff _ _).mpr rfl] at hf
          cases hf
        · simp only [Bool.false_eq_true, if_false]
          omega

include hE

theorem step_val (v : Value) (n : Node) (c : Ctx) (hc : c.bare) (hv : v.WF) (hn : n.frugal O F W .type = true) :
    valN env a x v n c + 1 ≤ n.flat F + gain W (n.shapes O) v := by
  cases n <;> simp only [Node.frugal] at hn <;> try contradiction
  case literal | prelude | ctlRegexp => simp only [valN, Node.flat]; omega
  case choice l =>
    have := choiceLoopN_le (f := fun n => a.val v n c) (g := fun n => x.val v n c) (fun n hn => hB.val v n c hc hv hn) hn
    simp only [valN, Node.flat, Node.shapes]
    omega
  case rule s as =>
    have has : as = [] := List.isEmpty_iff.mp hn
    subst has
    simp only [valN, Node.flat, Node.shapes, afterLookup]
    split
    · rename_i p hp
      obtain ⟨n', c'⟩ := p
      obtain ⟨d, hd, rfl, hc'⟩ := Ctx.bare_lookup hc hp
      obtain ⟨h1, h2, h3⟩ := hE s d hd
      have h4 := hB.val v d.node c' hc' hv h1
      have h5 := gain_mono (W := W) h3 v
      dsimp only
      omega
    · omega
  case array ms =>
    simp only [Bool.and_eq_true, decide_eq_true_eq] at hn
    exact step_array hB ms v c hc hv hn.1 hn.2
  case map ms =>
    simp only [Bool.and_eq_true, decide_eq_true_eq] at hn
    exact step_map hB ms v c hc hv hn.1 hn.2
  case range s e i =>
    simp only [Bool.and_eq_true] at hn
    have h1 := hB.deref s c hn.1
    have h2 := hB.deref e c hn.2
    simp only [valN, Node.flat, validateRangeN]
    split <;> omega
  case ctl op t arg =>
    simp only [Bool.and_eq_true] at hn
    have h1 := hB.chase t c hn.1
    have h2 := hB.chase arg c hn.2
    simp only [valN, Node.flat, validateControlN]
    (repeat' split) <;> omega

omit hE in
/-- An entry that is a type, matched against the first element. -/
theorem step_value (n : Node) (w : WArr) (c : Ctx) (hc : c.bare) (hw : Value.WFArr w.array) (hn : n.frugal O F W .type = true) :
    1 + arrayValueN x n w c ≤ n.flat F + gainHead W (n.shapes O) w.array ∧
    (∀ w', validateArrayValue env a n w c = .ok w' → ∃ h, w.array = h :: w'.array) ∧
    ∀ e w', validateArrayValue env a n w c = .err e w' → w' = w := by
  have hp := n.flat_pos (F := F)
  unfold arrayValueN validateArrayValue
  cases hx : w.array with
  | nil => exact ⟨by dsimp only; omega, fun _ h => (nomatch h), fun _ _ h => by cases h; rfl⟩
  | cons v t =>
    rw [hx, Value.WFArr] at hw
    have h1 := hB.val v n c hc hw.1 hn
    dsimp only
    refine ⟨by simp only [gainHead]; omega, fun w' h => ?_, fun e w' h => ?_⟩
    · split at h
      · unfold WArr.popFront at h
        rw [hx] at h
        dsimp only at h
        split at h <;> cases h <;> exact ⟨v, rfl⟩
      · rename_i hv
        cases hr : a.val v n c with
        | ok u => exact absurd hr hv
        | _ => rw [hr] at h; cases h
    · split at h
      · unfold WArr.popFront at h
        rw [hx] at h
        dsimp only at h
        split at h <;> cases h
      · cases hr : a.val v n c with
        | err e => rw [hr] at h; cases h; rfl
        | ok u => rw [hr] at h; cases h
        | _ => rw [hr] at h; cases h

theorem step_item (n : Node) (w : WArr) (c : Ctx) (hc : c.bare) (hw : Value.WFArr w.array) (hn : n.frugal O F W .item = true) :
    arrN env a x n w c ≤ n.flat F + gainHead W (n.shapes O) w.array ∧
    (∀ w', arrBody env a n w c = .ok w' → ∃ h, w.array = h :: w'.array) ∧
    ∀ e w', arrBody env a n w c = .err e w' → w' = w := by
  cases n <;> simp only [Node.frugal] at hn <;> try contradiction
  case literal | prelude | ctlRegexp | range | ctl | array | map =>
    exact step_value hB _ w c hc hw (by simpa only [Node.frugal] using hn)
  case keyValue k t cut =>
    obtain ⟨h1, h2, h3⟩ := step_value hB t w c hc hw hn
    refine ⟨?_, h2, h3⟩
    simp only [arrN, Node.flat, Node.shapes]
    omega
  case choice l =>
    obtain ⟨h1, h2, h3⟩ := choiceLoopSN_le (f := fun m w => a.arr m w c) (g := fun m w => x.arr m w c) (w := w)
      (fun n hn => hB.item n w c hc hw hn) hn
    refine ⟨?_, h2 _, h3 _⟩
    simp only [arrN, Node.flat, Node.shapes]
    omega
  case rule s as =>
    have has : as = [] := List.isEmpty_iff.mp hn
    subst has
    simp only [arrN, arrBody, Node.flat, Node.shapes, afterLookup]
    cases hp : c.lookupRule env s [] with
    | error e => exact ⟨by dsimp only; omega, fun _ h => (nomatch h), fun _ _ h => by cases h; rfl⟩
    | ok p =>
      obtain ⟨n', c'⟩ := p
      obtain ⟨d, hd, rfl, hc'⟩ := Ctx.bare_lookup hc hp
      obtain ⟨h1, h2, h3⟩ := hE s d hd
      obtain ⟨h4, h5, h6⟩ := hB.item d.node w c' hc' hw (Node.type_item h1)
      refine ⟨?_, h5, h6⟩
      have h7 : gainHead W (d.node.shapes O) w.array ≤ gainHead W (O s) w.array := by
        cases w.array with
        | nil => exact Nat.le_refl _
        | cons v t => exact gain_mono h3 v
      dsimp only
      omega

theorem step_entry (n : Node) (w : WArr) (c : Ctx) (P : List Shape) (hc : c.bare) (hw : Value.WFArr w.array)
    (hn : n.frugal O F W .entry = true) (hfl : n.flat F ≤ W) (hP : apartAll P (n.shapes O) = true) :
    arrN env a x n w c ≤ n.flat F + potA W P w.array ∧
    ∀ w', arrBody env a n w c = .ok w' → Value.WFArr w'.array ∧
      arrN env a x n w c + potA W (n.after O .entry P) w'.array ≤ n.flat F + potA W P w.array := by
  by_cases ho : ∃ lim m, n = .occur lim m
  · obtain ⟨lim, m, rfl⟩ := ho
    simp only [Node.frugal] at hn
    simp only [Node.flat, Node.shapes] at hfl hP ⊢
    obtain ⟨h1, h2⟩ := occurLoopSN_arr (f := fun w => a.arr m w c) (g := fun w => x.arr m w c) (up := lim.limits.2) hP
      (fl := m.flat F) (by omega) (fun w hw => hB.item m w c hc hw hn) (lim.limits.2 + 1) 0 w hw
    simp only [arrN, arrBody]
    refine ⟨by omega, fun w' h => ?_⟩
    obtain ⟨h3, h4⟩ := h2 _ _ w' h
    refine ⟨h3, ?_⟩
    have ha : (Node.occur lim m).after O .entry P = P ++ m.shapes O := rfl
    rw [ha]
    omega
  · have hi : n.frugal O F W .item = true := by
      cases n <;> simp only [Node.frugal] at hn ⊢ <;> first | exact hn | contradiction | exact absurd ⟨_, _, rfl⟩ ho
    have ha : n.after O .entry P = P := by
      cases n <;> first | rfl | exact absurd ⟨_, _, rfl⟩ ho
    obtain ⟨h1, h2, h3⟩ := step_item hE hB n w c hc hw hi
    have h4 := gainHead_le (W := W) hP w.array
    refine ⟨by omega, fun w' h => ?_⟩
    obtain ⟨v, hx⟩ := h2 w' h
    rw [hx] at h1 hw ⊢
    rw [ha]
    have h5 := gain_le_left (W := W) hP v
    refine ⟨hw.2, ?_⟩
    simp only [gainHead] at h1
    simp only [potA]
    omega

theorem step_pair (k t : Node) (cut : Bool) (w : WMap) (c : Ctx) (N : Nat) (hc : c.bare) (hw : w.fine N)
    (hn : (Node.keyValue k t cut).frugal O F W .pair = true) :
    (mapN env a x (.keyValue k t cut) w c ≤ (Node.keyValue k t cut).flat F * (1 + N) ∨ ∃ y z, (y, z) ∈ w.map ∧
      mapN env a x (.keyValue k t cut) w c ≤ (Node.keyValue k t cut).flat F * (1 + N) + gain W (t.shapes O) z) ∧
    (∀ w', mapBody env a (.keyValue k t cut) w c = .ok w' → ∃ y z, (y, z) ∈ w.map ∧ w'.map = w.map.without y ∧
      mapN env a x (.keyValue k t cut) w c ≤ (Node.keyValue k t cut).flat F * (1 + N) + gain W (t.shapes O) z) ∧
    ∀ e w', mapBody env a (.keyValue k t cut) w c = .err e w' → w' = w ∧
      (mapN env a x (.keyValue k t cut) w c ≤ (Node.keyValue k t cut).flat F * (1 + N) ∨ (cut = true → e.isMismatch = false)) := by
  simp only [Node.frugal, Bool.and_eq_true, List.isEmpty_iff] at hn
  obtain ⟨⟨hk, hks⟩, ht⟩ := hn
  obtain ⟨hpw, hwf, hlen⟩ := hw
  have hwf' := (Value.WFMap_iff _).mp hwf
  have h1 : mapKeyN a x k w c ≤ N * k.flat F := by
    have hs : mapSearchLoopN (fun key => a.val key k c) (fun key => x.val key k c) w.map ≤ w.map.length * k.flat F := by
      refine mapSearchLoopN_le fun p hp => ?_
      have := hB.val p.1 k c hc (hwf' p hp).1 hk
      rw [hks] at this
      simp only [gain, fitsAny, List.any_nil, Bool.false_eq_true, if_false] at this
      omega
    have h2 : w.map.length * k.flat F ≤ N * k.flat F := Nat.mul_le_mul_right _ hlen
    unfold mapKeyN
    split
    · exact Nat.zero_le _
    · omega
  have hmem : ∀ p, validateMapKey env a k w c = .ok p → p ∈ w.map := by
    intro p hp
    unfold validateMapKey at hp
    split at hp
    · unfold mapSearchLiteral at hp
      split at hp
      · rename_i hg
        cases hp
        exact (VMap.get_some hpw).mp hg
      · cases hp
    · exact mapSearchLoop_mem hp
  have hf : (Node.keyValue k t cut).flat F * (1 + N) = (1 + t.flat F) + (k.flat F + N * (1 + t.flat F)) + N * k.flat F := by
    simp only [Node.flat]
    rw [Nat.mul_add, Nat.mul_one, Nat.mul_comm _ N, Nat.mul_add, Nat.mul_add, Nat.mul_add, Nat.mul_one]
    omega
  have hb : ∀ p, p ∈ w.map → 1 + (mapKeyN a x k w c + x.val p.2 t c) ≤
      (Node.keyValue k t cut).flat F * (1 + N) + gain W (t.shapes O) p.2 := by
    intro p hp
    have := hB.val p.2 t c hc (hwf' p hp).2 ht
    rw [hf]
    omega
  have hb0 : 1 + (mapKeyN a x k w c + 0) ≤ (Node.keyValue k t cut).flat F * (1 + N) := by
    have := t.flat_pos (F := F)
    rw [hf]
    omega
  simp only [mapN, mapBody, mapKeyvalueN, validateMapKeyvalue]
  cases hr : validateMapKey env a k w c with
  | ok p =>
    obtain ⟨y, z⟩ := p
    have hm := hmem _ hr
    dsimp only
    refine ⟨.inr ⟨y, z, hm, hb _ hm⟩, fun w' h => ?_, fun e w' h => ?_⟩
    · cases hv : a.val z t c with
      | ok u =>
        rw [hv] at h
        dsimp only [WMap.remove] at h
        rw [VMap.remove_some hpw hm] at h
        dsimp only at h
        refine ⟨y, z, hm, ?_, hb _ hm⟩
        split at h <;> cases h <;> rfl
      | err e =>
        rw [hv] at h
        dsimp only at h
        split at h <;> cases h
      | _ => rw [hv] at h; cases h
    · cases hv : a.val z t c with
      | ok u =>
        rw [hv] at h
        dsimp only [WMap.remove] at h
        rw [VMap.remove_some hpw hm] at h
        dsimp only at h
        split at h <;> cases h
      | err e' =>
        rw [hv] at h
        dsimp only at h
        split at h
        · cases h
          exact ⟨rfl, .inr fun _ => rfl⟩
        · rename_i hne
          cases h
          refine ⟨rfl, .inr fun hcut => ?_⟩
          cases e with
          | mismatch m => exact absurd rfl (hne m hcut)
          | _ => rfl
      | _ => rw [hv] at h; cases h
  | err e => exact ⟨.inl hb0, fun _ h => (nomatch h), fun _ _ h => by cases h; exact ⟨rfl, .inl hb0⟩⟩
  | panic => exact ⟨.inl hb0, fun _ h => (nomatch h), fun _ _ h => (nomatch h)⟩
  | fuel => exact ⟨.inl hb0, fun _ h => (nomatch h), fun _ _ h => (nomatch h)⟩

theorem step_member (n : Node) (w : WMap) (c : Ctx) (P : List Shape) (N : Nat) (hc : c.bare) (hw : w.fine N)
    (hn : n.frugal O F W .member = true) (hfl : n.flat F ≤ W) (hP : apartAll P (n.shapes O) = true) :
    mapN env a x n w c ≤ n.flat F * (1 + N) + potM W P N w.map ∧
    ∀ w', mapBody env a n w c = .ok w' → w'.fine N ∧
      mapN env a x n w c + potM W (n.after O .member P) N w'.map ≤ n.flat F * (1 + N) + potM W P N w.map := by
  cases n <;> simp only [Node.frugal] at hn <;> try contradiction
  case occur lim m =>
    cases m <;> simp only [Node.frugal] at hn <;> try contradiction
    rename_i k t cut
    simp only [Node.shapes] at hP
    have hfl' : (Node.keyValue k t cut).flat F ≤ W := by
      simp only [Node.flat] at hfl ⊢
      omega
    obtain ⟨h1, h2⟩ := occurLoopSN_map (f := fun w => a.map (.keyValue k t cut) w c)
      (g := fun w => x.map (.keyValue k t cut) w c) (up := lim.limits.2) (N := N) (cut := cut) hP hfl'
      (fun w hw => hB.pair k t cut w c N hc hw (by simpa only [Node.frugal] using hn)) (lim.limits.2 + 1) 0 w hw
    have hf : (Node.occur lim (.keyValue k t cut)).flat F * (1 + N) = 1 + N + (Node.keyValue k t cut).flat F * (1 + N) := by
      show (1 + _) * _ = _
      rw [Nat.add_mul, Nat.one_mul]
    rw [hf]
    simp only [mapN, mapBody]
    refine ⟨by omega, fun w' h => ?_⟩
    obtain ⟨h3, h4⟩ := h2 _ _ w' h
    refine ⟨h3, ?_⟩
    have ha : (Node.occur lim (.keyValue k t cut)).after O .member P = if cut then P else P ++ t.shapes O := by
      cases cut <;> rfl
    rw [ha]
    omega
  case keyValue k t cut =>
    obtain ⟨h1, h2, h3⟩ := step_pair hE hB k t cut w c N hc hw (by simpa only [Node.frugal] using hn)
    have hfl' : (Node.keyValue k t cut).flat F * (1 + N) ≤ W * (1 + N) := Nat.mul_le_mul_right _ hfl
    simp only [Node.shapes] at hP
    refine ⟨?_, fun w' h => ?_⟩
    · rcases h1 with h1 | ⟨y, z, hm, h1⟩
      · omega
      · have := gain_le_potM (W := W) hP (N := N) hm
        omega
    · obtain ⟨y, z, hm, hx, h4⟩ := h2 w' h
      have h5 := potM_without (W := W) P N hw.1 hm
      rw [← hx] at h5
      have h6 := gain_le_left (W := W) hP z
      have ha : (Node.keyValue k t cut).after O .member P = P := rfl
      rw [ha]
      exact ⟨WMap.fine_without hw hx, by omega⟩

theorem bounded_step : Bounded O F W (step env a) (stepN env a x) where
  lit l v c := by
    refine ⟨Nat.le_refl _, fun h => ?_⟩
    have h' : validateLiteral env l v = .ok () := h
    unfold validateLiteral at h'
    split at h'
    · rename_i hb
      exact (Value.beq_iff _ _).mp hb
    · cases h'
  arrLit := step_arrLit hB
  mapLit := step_mapLit hB
  deref n c h := by
    cases n <;> first | exact Nat.le_refl _ | cases h
  chase n c h := by
    cases n <;> first | exact Nat.le_refl _ | cases h
  val := step_val hE hB
  item := step_item hE hB
  entry := step_entry hE hB
  pair := step_pair hE hB
  member := step_member hE hB

end Step

theorem bounded {env : Env} (hE : FrugalRules O F W env) : ∀ k, Bounded O F W (fns env k) (costs env k)
  | 0 => bounded_bot
  | k + 1 => bounded_step hE (bounded hE k)

end

/-! ## Work and size -/

theorem Value.size_pos (v : Value) : 1 ≤ v.size := by
  cases v <;> simp only [Value.size] <;> omega

theorem Value.length_le : ∀ m : List (Value × Value), m.length ≤ Value.pairSizes m
  | [] => Nat.le_refl _
  | (k, v) :: t => by
    have h1 := Value.length_le t
    have h2 := k.size_pos
    simp only [List.length_cons, Value.pairSizes]
    omega

mutual
theorem Value.work_le : ∀ v : Value, v.work ≤ v.size * v.size
  | .array xs => by
    have h1 := Value.works_le xs
    simp only [Value.work, Value.size, Nat.add_mul, Nat.mul_add, Nat.one_mul, Nat.mul_one]
    omega
  | .map m => by
    have h1 := Value.pairWorks_le m
    have h2 := Value.length_le m
    simp only [Value.work, Value.size, Nat.add_mul, Nat.mul_add, Nat.one_mul, Nat.mul_one]
    omega
  | .null | .bool _ | .integer _ | .float _ | .bytes _ | .text _ => Nat.zero_le _
theorem Value.works_le : ∀ l : List Value, Value.works l ≤ Value.sizes l + Value.sizes l * Value.sizes l
  | [] => Nat.le_refl _
  | x :: xs => by
    have h1 := Value.work_le x
    have h2 := Value.works_le xs
    have h3 := x.size_pos
    simp only [Value.works, Value.sizes, Nat.add_mul, Nat.mul_add]
    omega
theorem Value.pairWorks_le : ∀ m : List (Value × Value),
    Value.pairWorks m + m.length * m.length ≤ Value.pairSizes m * Value.pairSizes m
  | [] => Nat.le_refl _
  | (k, v) :: t => by
    have h1 := Value.work_le v
    have h2 := Value.pairWorks_le t
    have h3 := Value.length_le t
    obtain ⟨j, hj⟩ := Nat.le.dest k.size_pos
    simp only [Value.pairWorks, Value.pairSizes, List.length_cons, ← hj, Nat.add_mul, Nat.mul_add, Nat.one_mul,
      Nat.mul_one]
    omega
end

mutual
theorem Value.work_lt : ∀ v : Value, v.mapless = true → v.work + 1 ≤ 2 * v.size
  | .array xs, h => by
    have h1 := Value.works_lt xs (by simpa only [Value.mapless] using h)
    simp only [Value.work, Value.size]
    omega
  | .map m, h => by simp [Value.mapless] at h
  | .null, _ | .bool _, _ | .integer _, _ | .float _, _ | .bytes _, _ | .text _, _ => by simp [Value.work, Value.size]
theorem Value.works_lt : ∀ l : List Value, Value.maplessL l = true → Value.works l ≤ 2 * Value.sizes l
  | [], _ => Nat.le_refl _
  | x :: xs, h => by
    simp only [Value.maplessL, Bool.and_eq_true] at h
    have h1 := Value.work_lt x h.1
    have h2 := Value.works_lt xs h.2
    simp only [Value.works, Value.sizes]
    omega
end

theorem gain_le_work (W : Nat) (S : List Shape) (x : Value) : gain W S x ≤ W * x.work := by
  unfold gain
  split
  · exact Nat.le_refl _
  · exact Nat.zero_le _

theorem RuleTable.mem_of_find {t : RuleTable} {s : String} {d : RuleDef} (h : t.find s = some d) : (s, d) ∈ t := by
  induction t with
  | nil => cases h
  | cons p t ih =>
    obtain ⟨n, d'⟩ := p
    unfold RuleTable.find at h
    split at h
    · rename_i hd
      cases h
      exact List.mem_cons_of_mem _ (ih hd)
    · split at h
      · cases h
        simp_all
      · cases h

theorem RuleTable.frugal_rules (l : Libs) {t : RuleTable} (h : t.frugal = true) :
    FrugalRules t.tally.shapes t.tally.flat t.width (l.env t) := by
  intro s d hd
  have hf : t.find s = some d := by
    simp only [Libs.env, RuleTable.lookup] at hd
    split at hd
    · rename_i hd'
      cases hd
      exact hd'
    · cases hd
  unfold RuleTable.frugal at h
  have := List.all_eq_true.mp h _ (RuleTable.mem_of_find hf)
  simp only [Bool.and_eq_true, decide_eq_true_eq, List.all_eq_true] at this
  exact ⟨this.1.1, this.1.2, this.2⟩

end Cddl
