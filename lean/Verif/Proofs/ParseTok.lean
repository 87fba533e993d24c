import Verif.Proofs.Nom
import Verif.Spec.Grammar

/-!
# Tokens: what the lexical parsers consume
-/

namespace Cddl

/-! ## Characters -/

theorem isMultispace_iff (c : Char) : isMultispace c = true ↔ Blank c := by
  simp [isMultispace, Blank, or_assoc]

theorem ealphaChar_iff (c : Char) : ealphaChar c = true ↔ EAlpha c := by
  simp [ealphaChar, EAlpha, or_assoc]

theorem isDigit_iff (c : Char) : isDigit c = true ↔ Digit c := by simp [isDigit, Digit]

theorem isHexDigit_iff (c : Char) : isHexDigit c = true ↔ HexDigit c := by
  simp [isHexDigit, HexDigit, isDigit_iff, or_assoc]

theorem hexDigit_cases {c : Char} (h : HexDigit c) : c ∈ "0123456789abcdefABCDEF".toList := by
  have key : ∀ k, k < 128 → (48 ≤ k ∧ k ≤ 57) ∨ (97 ≤ k ∧ k ≤ 102) ∨ (65 ≤ k ∧ k ≤ 70) →
      Char.ofNat k ∈ "0123456789abcdefABCDEF".toList := by decide
  have h' : (48 ≤ c.toNat ∧ c.toNat ≤ 57) ∨ (97 ≤ c.toNat ∧ c.toNat ≤ 102) ∨ (65 ≤ c.toNat ∧ c.toNat ≤ 70) := h
  have := key c.toNat (by omega) h'
  rwa [Char.ofNat_toNat] at this

theorem digit_cases {c : Char} (h : Digit c) : c ∈ "0123456789".toList := by
  have key : ∀ k, k < 128 → (48 ≤ k ∧ k ≤ 57) → Char.ofNat k ∈ "0123456789".toList := by decide
  have h' : 48 ≤ c.toNat ∧ c.toNat ≤ 57 := h
  have := key c.toNat (by omega) h'
  rwa [Char.ofNat_toNat] at this

theorem digitVal_hex {c : Char} (h : HexDigit c) : digitVal c = some (digitValue c) ∧ digitValue c < 16 := by
  have key : ∀ c ∈ "0123456789abcdefABCDEF".toList, digitVal c = some (digitValue c) ∧ digitValue c < 16 := by
    decide
  exact key c (hexDigit_cases h)

theorem digitVal_dec {c : Char} (h : Digit c) : digitVal c = some (digitValue c) ∧ digitValue c < 10 := by
  have key : ∀ c ∈ "0123456789".toList, digitVal c = some (digitValue c) ∧ digitValue c < 10 := by
    decide
  exact key c (digit_cases h)

theorem digitVal_bin {c : Char} (h : c = '0' ∨ c = '1') : digitVal c = some (digitValue c) ∧ digitValue c < 2 := by
  rcases h with rfl | rfl <;> decide

theorem digitVal_isHex {c : Char} {d : Nat} (h : digitVal c = some d) : HexDigit c ∧ d = digitValue c := by
  have hh : HexDigit c := by
    unfold digitVal at h
    unfold HexDigit Digit
    split at h
    · exact .inl ‹_›
    · split at h
      · exact .inr (.inl ‹_›)
      · split at h
        · exact .inr (.inr ‹_›)
        · cases h
  exact ⟨hh, by have := (digitVal_hex hh).1; rw [h] at this; exact Option.some.inj this⟩

/-! ## White space -/

theorem dropWhile_head {f : Char → Bool} {l : List Char} {c : Char} {d : List Char} (h : l.dropWhile f = c :: d) :
    f c = false := by
  induction l with
  | nil => cases h
  | cons e l ih =>
    rw [List.dropWhile_cons] at h
    split at h
    · exact ih h
    · rename_i he; cases h; simpa using he

theorem comment_cases (i : List Char) :
    (∃ e, comment i = .err e) ∨ ∃ t r, i = ';' :: t ++ r ∧ comment i = .ok r t ∧
      (∀ c ∈ t, c ≠ '\r' ∧ c ≠ '\n') ∧ (r = [] ∨ (∃ r', r = '\n' :: r') ∨ ∃ r', r = '\r' :: '\n' :: r') := by
  cases i with
  | nil => exact .inl ⟨_, rfl⟩
  | cons c i =>
    simp only [comment, preceded, chr, satisfy]
    split
    · rename_i h
      have hc : c = ';' := by simpa using h
      subst hc
      simp only [PR.bind, notLineEnding]
      have ht : ∀ c ∈ i.takeWhile (fun c => c != '\r' && c != '\n'), c ≠ '\r' ∧ c ≠ '\n' := by
        intro c hc
        simpa using mem_takeWhile hc
      have happ := List.takeWhile_append_dropWhile (p := fun c => c != '\r' && c != '\n') (l := i)
      split
      · rename_i r heq
        rw [heq] at happ
        exact .inr ⟨_, _, by rw [← happ]; simp [happ], rfl, ht, .inr (.inr ⟨r, rfl⟩)⟩
      · exact .inl ⟨_, rfl⟩
      · rename_i h1 h2
        refine .inr ⟨_, _, by rw [List.cons_append, happ], rfl, ht, ?_⟩
        cases hd : i.dropWhile (fun c => c != '\r' && c != '\n') with
        | nil => exact .inl rfl
        | cons c d =>
          have hc := dropWhile_head hd
          have : c = '\r' ∨ c = '\n' := by
            by_cases hr : c = '\r'
            · exact .inl hr
            · right; simpa [hr] using hc
          rcases this with rfl | rfl
          · exact absurd hd (h2 d)
          · exact .inr (.inl ⟨d, rfl⟩)
    · exact .inl ⟨_, rfl⟩

theorem multispace1_cases (i : List Char) :
    ((∃ e, multispace1 i = .err e) ∧ NotHead Blank i) ∨
      ∃ s r, i = s ++ r ∧ s ≠ [] ∧ (∀ c ∈ s, Blank c) ∧ NotHead Blank r ∧ multispace1 i = .ok r s := by
  simp only [multispace1, takeWhile1]
  split
  · rename_i h
    refine .inl ⟨⟨_, rfl⟩, ?_⟩
    cases i with
    | nil => trivial
    | cons c i =>
      rw [List.takeWhile_cons] at h
      split at h
      · cases h
      · rename_i hc; rw [isMultispace_iff] at hc; exact hc
  · rename_i hne
    refine .inr ⟨_, _, List.takeWhile_append_dropWhile.symm, hne, ?_, ?_, rfl⟩
    · exact fun c hc => (isMultispace_iff c).1 (mem_takeWhile hc)
    · cases hd : i.dropWhile isMultispace with
      | nil => trivial
      | cons c d =>
        have := dropWhile_head hd
        intro hb
        rw [← isMultispace_iff, this] at hb
        cases hb

theorem WS.append {w v : List Char} (hw : WS w) (hv : WS v) : WS (w ++ v) := by
  induction hw with
  | nil => exact hv
  | blank h _ ih => exact .blank h ih
  | comment h _ ih => simpa using WS.comment h ih
  | commentCr h _ ih => simpa using WS.commentCr h ih

theorem WS.blanks {s : List Char} (h : ∀ c ∈ s, Blank c) : WS s := by
  induction s with
  | nil => exact .nil
  | cons c s ih => exact .blank (h c (by simp)) (ih fun d hd => h d (by simp [hd]))

theorem WS.tail {c : Char} {w : List Char} (h : WS (c :: w)) (hc : Blank c) : WS w := by
  generalize hv : c :: w = v at h
  cases h with
  | nil => cases hv
  | blank h1 h2 => cases hv; exact h2
  | comment h1 h2 => cases hv; rcases hc with h | h | h | h <;> cases h
  | commentCr h1 h2 => cases hv; rcases hc with h | h | h | h <;> cases h

/-- The loop of `ws` always succeeds, consumes white space, and stops before a character that is no blank. -/
theorem ws_loop : ∀ k (i : List Char), i.length < k →
    ∃ r as s, many0Loop (alt multispace1 comment) k i = .ok r as ∧ Reads i r s ∧ WS s ∧ NotHead Blank r := by
  intro k
  induction k with
  | zero => intro i h; exact absurd h (Nat.not_lt_zero _)
  | succ k ih =>
    intro i hk
    simp only [many0Loop, alt]
    rcases multispace1_cases i with ⟨⟨e, he⟩, hnb⟩ | ⟨s, r, hi, hne, hb, hr, hok⟩
    · rw [he]
      rcases comment_cases i with ⟨e', he'⟩ | ⟨t, r, hi, hok, ht, hr⟩
      · rw [he']
        exact ⟨i, [], [], rfl, .inl rfl, .nil, hnb⟩
      · simp only [hok]
        have hlen : r.length < i.length := by rw [hi]; simp; omega
        rw [if_neg (by omega)]
        obtain ⟨r', as, s, h1, h2, h3, h4⟩ := ih r (by omega)
        rw [h1]
        rcases hr with rfl | ⟨u, rfl⟩ | ⟨u, rfl⟩
        · have hs : s = [] ∧ r' = [] := by
            rcases h2 with h2 | ⟨h2, _⟩
            · simpa using h2
            · exact absurd rfl h2
          obtain ⟨rfl, rfl⟩ := hs
          refine ⟨[], t :: as, i ++ ['\n'], rfl, .inr ⟨by rw [hi]; simp, rfl, rfl⟩, ?_, trivial⟩
          rw [hi]
          simpa using WS.comment ht WS.nil
        · refine ⟨r', t :: as, ';' :: t ++ s, rfl, ?_, ?_, h4⟩
          · rw [hi]; exact readsRel.trans (readsRel.exact _ _) h2
          · obtain ⟨w, rfl⟩ : ∃ w, s = '\n' :: w := by
              rcases h2 with h2 | ⟨_, _, h2⟩
              · cases s with
                | nil =>
                  simp at h2; rw [← h2] at h4
                  exact absurd (.inr (.inr (.inr rfl))) h4
                | cons c s => simp at h2; exact ⟨s, by rw [h2.1]⟩
              · exact ⟨_, h2⟩
            exact .comment ht (h3.tail (.inr (.inr (.inr rfl))))
        · refine ⟨r', t :: as, ';' :: t ++ s, rfl, ?_, ?_, h4⟩
          · rw [hi]; exact readsRel.trans (readsRel.exact _ _) h2
          · obtain ⟨w, rfl⟩ : ∃ w, s = '\r' :: '\n' :: w := by
              rcases h2 with h2 | ⟨_, _, h2⟩
              · rcases s with _ | ⟨c, _ | ⟨d, s⟩⟩
                · simp at h2; rw [← h2] at h4
                  exact absurd (.inr (.inr (.inl rfl))) h4
                · simp at h2; rw [← h2.2] at h4
                  exact absurd (.inr (.inr (.inr rfl))) h4
                · simp at h2; exact ⟨s, by rw [h2.1, h2.2.1]⟩
              · exact ⟨_, h2⟩
            exact .commentCr ht ((h3.tail (.inr (.inr (.inl rfl)))).tail (.inr (.inr (.inr rfl))))
    · rw [hok]
      simp only
      have hlen : r.length < i.length := by
        rw [hi]
        have := List.length_pos_iff.2 hne
        simp; omega
      rw [if_neg (by omega)]
      obtain ⟨r', as, s', h1, h2, h3, h4⟩ := ih r (by omega)
      rw [h1]
      refine ⟨r', s :: as, s ++ s', rfl, ?_, (WS.blanks hb).append h3, h4⟩
      rw [hi]; exact readsRel.trans (readsRel.exact _ _) h2

theorem ws_spec (i : List Char) : ∃ r t s, ws i = .ok r t ∧ Reads i r s ∧ WS s ∧ NotHead Blank r := by
  obtain ⟨r, as, s, h1, h2, h3, h4⟩ := ws_loop (i.length + 1) i (Nat.lt_succ_self _)
  exact ⟨r, _, s, by simp only [ws, recognize, many0, h1, PR.bind]; rfl, h2, h3, h4⟩

theorem sound_ws {n : Nat} : ParsesTo Reads n ws (fun s _ => WS s) := fun i _ => by
  obtain ⟨r, t, s, h1, h2, h3, _⟩ := ws_spec i
  rw [h1]
  exact ⟨s, h2, h3⟩

theorem sound_optcom {n : Nat} : ParsesTo Reads n optcom (fun s _ => OptComma s) := by
  refine sound_pmap (sound_pair readsRel sound_ws
    (sound_opt readsRel (sound_pair readsRel (sound_tag readsRel ",") sound_ws))) ?_
  rintro s ⟨a, o⟩ ⟨w, s2, rfl, hw, h | ⟨⟨b, c⟩, h, s3, s4, rfl, ⟨rfl, -⟩, h4⟩⟩
  · rw [h.2, List.append_nil]; exact .none hw
  · exact .some hw h4

/-! ## Identifiers -/

theorem IdTail.run {t u : List Char} (ht : ∀ c ∈ t, EAlpha c ∨ Digit c) (hu : IdTail u) : IdTail (t ++ u) := by
  induction t with
  | nil => exact hu
  | cons c t ih =>
    exact IdTail.cons (ps := []) (by simp) (ht c (by simp)) (ih fun d hd => ht d (by simp [hd]))

theorem sound_identTail {n : Nat} : ParsesTo Exact n identTail
    (fun s _ => ∃ ps c t, s = ps ++ c :: t ∧ (∀ p ∈ ps, p = '-' ∨ p = '.') ∧ ∀ d ∈ c :: t, EAlpha d ∨ Digit d) := by
  have hstar : ∀ s as, Star (fun s c => s = [c] ∧ ("-.".toList.contains c) = true) s as →
      ∀ p ∈ s, p = '-' ∨ p = '.' := by
    intro s as h
    induction h with
    | nil => simp
    | cons h _ ih =>
      obtain ⟨rfl, h⟩ := h
      intro p hp
      rcases List.mem_append.1 hp with hp | hp
      · have hpa := List.mem_singleton.1 hp
        subst hpa
        simpa using h
      · exact ih p hp
  have h1 : ParsesTo Exact n (opt (many1 (oneOfChars "-."))) (fun s _ => ∀ p ∈ s, p = '-' ∨ p = '.') :=
    (sound_opt exactRel (sound_many1 exactRel (sound_satisfy exactRel _) (by rintro s a ⟨rfl, -⟩; simp))).imp (by
      rintro s o (⟨-, rfl⟩ | ⟨a, -, s1, b, s2, bs, rfl, -, h1, h2⟩)
      · simp
      · have := hstar _ _ (.cons h1 h2)
        exact this)
  have h2 : ParsesTo Exact n (alt ealpha digit1) (fun s _ => s ≠ [] ∧ ∀ d ∈ s, EAlpha d ∨ Digit d) := by
    refine sound_alt ((sound_takeWhile1 exactRel _).imp ?_) ((sound_takeWhile1 exactRel _).imp ?_)
    · exact fun s a h => ⟨h.2.1, fun d hd => .inl ((ealphaChar_iff d).1 (h.2.2 d hd))⟩
    · exact fun s a h => ⟨h.2.1, fun d hd => .inr ((isDigit_iff d).1 (h.2.2 d hd))⟩
  refine (sound_recognize (sound_preceded exactRel h1 h2)).imp ?_
  rintro s a ⟨-, b, s1, s2, c, rfl, h3, h4, h5⟩
  cases s2 with
  | nil => exact absurd rfl h4
  | cons c t => exact ⟨s1, c, t, rfl, h3, h5⟩

theorem sound_ident {n : Nat} : ParsesTo Exact n ident (fun s a => a = s ∧ Ident s) := by
  have h1 : ParsesTo Exact n ealpha _ := sound_takeWhile1 exactRel _
  refine (sound_recognize (sound_preceded exactRel h1 (sound_many0 exactRel sound_identTail ?_))).imp ?_
  · rintro s - ⟨ps, c, t, rfl, -⟩; simp
  · rintro s a ⟨rfl, b, s1, s2, c, rfl, ⟨-, hne, h3⟩, h4⟩
    refine ⟨rfl, ?_⟩
    have ht : IdTail s2 := by
      clear h3 hne
      induction h4 with
      | nil => exact .nil
      | cons h _ ih =>
        obtain ⟨ps, c, t, rfl, h5, h6⟩ := h
        have := IdTail.cons h5 (h6 c (by simp)) (IdTail.run (fun d hd => h6 d (List.mem_cons_of_mem _ hd)) ih)
        simpa using this
    cases s1 with
    | nil => exact absurd rfl hne
    | cons c t =>
      refine .mk ((ealphaChar_iff c).1 (h3 c (by simp))) (IdTail.run (fun d hd => ?_) ht)
      exact .inl ((ealphaChar_iff d).1 (h3 d (by simp [hd])))

theorem Ident.ne {s : List Char} (h : Ident s) : s ≠ [] := by cases h; simp

/-! ## Numbers -/

/-- Digits of the given base. -/
def BaseDigits (base : Nat) (s : List Char) : Prop := ∀ c ∈ s, digitVal c = some (digitValue c) ∧ digitValue c < base

theorem foldl_ge (base : Nat) (hb : 0 < base) (s : List Char) (acc : Nat) :
    acc ≤ s.foldl (fun n c => n * base + digitValue c) acc := by
  induction s generalizing acc with
  | nil => exact Nat.le_refl _
  | cons c s ih =>
    refine Nat.le_trans ?_ (ih _)
    exact Nat.le_trans (Nat.le_mul_of_pos_right _ hb) (Nat.le_add_right _ _)

theorem radixLoop_eq {base : Nat} (hb : 0 < base) {s : List Char} (hs : BaseDigits base s) {acc : Nat}
    (ha : acc < 18446744073709551616) :
    radixLoop base acc s = if s.foldl (fun n c => n * base + digitValue c) acc < 18446744073709551616 then
      some (s.foldl (fun n c => n * base + digitValue c) acc) else none := by
  induction s generalizing acc with
  | nil => simp [radixLoop, ha]
  | cons c s ih =>
    have hc := hs c (by simp)
    have hs' : BaseDigits base s := fun d hd => hs d (by simp [hd])
    simp only [radixLoop, hc.1, hc.2, true_and, List.foldl_cons]
    split
    · rename_i h; exact ih hs' h
    · rename_i h
      have := foldl_ge base hb s (acc * base + digitValue c)
      exact (if_neg (by omega)).symm

theorem fromStrRadix_eq {base : Nat} (hb : 0 < base) {s : List Char} (hs : BaseDigits base s) (hne : s ≠ []) :
    fromStrRadix s base = if numeral base s < 18446744073709551616 then some (numeral base s) else none := by
  unfold fromStrRadix
  rw [if_neg (by simpa using hne), radixLoop_eq hb hs (by decide)]
  rfl

/-- A number token: its digits, its base, and its text. -/
def RawOk (s : List Char) (raw : RawUint) : Prop :=
  UintText s (numeral raw.base raw.slice) ∧ 0 < raw.base ∧ BaseDigits raw.base raw.slice ∧ raw.slice ≠ []

theorem UintText.ne {s : List Char} {n : Nat} (h : UintText s n) : s ≠ [] := by cases h <;> simp

theorem sound_uint {n : Nat} : ParsesTo Exact n uint RawOk := by
  refine sound_alt ?_ (sound_alt ?_ ?_)
  · refine sound_pmap (sound_preceded exactRel (sound_tag exactRel "0x") (sound_takeWhile1 exactRel _)) ?_
    rintro s a ⟨s1, s2, b, rfl, ⟨rfl, -⟩, rfl, hne, h⟩
    have hd : ∀ d ∈ a, HexDigit d := fun d hd => (isHexDigit_iff d).1 (h d hd)
    exact ⟨.hex hne hd, by simp, fun c hc => digitVal_hex (hd c hc), hne⟩
  · have hstar : ∀ s as, Star (fun s c => s = [c] ∧ ("01".toList.contains c) = true) s as →
        ∀ p ∈ s, p = '0' ∨ p = '1' := by
      intro s as h
      induction h with
      | nil => simp
      | cons h _ ih =>
        obtain ⟨rfl, h⟩ := h
        intro p hp
        rcases List.mem_append.1 hp with hp | hp
        · have hpa := List.mem_singleton.1 hp
          subst hpa
          simpa using h
        · exact ih p hp
    refine sound_pmap (sound_preceded exactRel (sound_tag exactRel "0b") (sound_recognize
      (sound_many1 exactRel (sound_satisfy exactRel _) (by rintro s a ⟨rfl, -⟩; simp)))) ?_
    rintro s a ⟨s1, s2, b, rfl, ⟨rfl, -⟩, rfl, as, s3, c, s4, bs, rfl, -, h3, h4⟩
    have hd : ∀ d ∈ s3 ++ s4, d = '0' ∨ d = '1' := hstar _ _ (.cons h3 h4)
    have hne : s3 ++ s4 ≠ [] := by rw [h3.1]; simp
    exact ⟨.bin hne hd, by simp, fun c hc => digitVal_bin (hd c hc), hne⟩
  · refine sound_pmap (G := fun s a => a = s ∧ (s = ['0'] ∨ ∃ c ds, s = c :: ds ∧ Digit c ∧ c ≠ '0' ∧ ∀ d ∈ ds, Digit d))
      (sound_alt ((sound_tag exactRel "0").imp ?_) ((sound_recognize (sound_pair exactRel (sound_satisfy exactRel _)
        (sound_takeWhile0 exactRel _))).imp ?_)) ?_
    · rintro s a ⟨rfl, rfl⟩; exact ⟨rfl, .inl rfl⟩
    · rintro s a ⟨rfl, ⟨c, t⟩, s1, s2, rfl, ⟨rfl, hc⟩, rfl, ht⟩
      refine ⟨rfl, .inr ⟨c, t, rfl, ?_, ?_, fun d hd => (isDigit_iff d).1 (ht d hd)⟩⟩
      · have key : ∀ c ∈ "123456789".toList, '0' ≤ c ∧ c ≤ '9' := by decide
        exact key c (by simpa using hc)
      · rintro rfl; simp only at hc; revert hc; decide
    · rintro s a ⟨rfl, rfl | ⟨c, ds, rfl, hc, h0, hds⟩⟩
      · exact ⟨.zero, by decide, by unfold BaseDigits; decide, by simp⟩
      · refine ⟨.dec hc h0 hds, by simp, fun d hd => ?_, by simp⟩
        rcases List.mem_cons.1 hd with rfl | hd
        · exact digitVal_dec hc
        · exact digitVal_dec (hds d hd)

theorem sound_uintU64 {n : Nat} : ParsesTo Exact n uintU64 (fun s k => UintText s k ∧ k < 2 ^ 64) := by
  refine sound_mapResFail sound_uint ?_
  rintro s raw k ⟨h1, h2, h3, h4⟩ h
  rw [fromStrRadix_eq h2 h3 h4] at h
  by_cases hlt : numeral raw.base raw.slice < 18446744073709551616
  · rw [if_pos hlt] at h
    cases h
    exact ⟨h1, hlt⟩
  · rw [if_neg hlt] at h; cases h

theorem sound_dotFraction {n : Nat} : ParsesTo Exact n dotFraction (fun s _ => FracText s ∧ s ≠ []) := by
  refine (sound_recognize (sound_pair exactRel (sound_chr exactRel '.') (sound_takeWhile1 exactRel _))).imp ?_
  rintro s a ⟨-, ⟨b, c⟩, s1, s2, rfl, rfl, rfl, hne, h⟩
  exact ⟨.some hne fun d hd => (isDigit_iff d).1 (h d hd), by simp⟩

theorem sound_eExponent {n : Nat} : ParsesTo Exact n eExponent (fun s _ => ExpText s ∧ s ≠ []) := by
  refine (sound_recognize (sound_pair exactRel (sound_chr exactRel 'e') (sound_pair exactRel
    (sound_opt exactRel (sound_satisfy exactRel _)) (sound_takeWhile1 exactRel _)))).imp ?_
  rintro s a ⟨-, ⟨b, o, c⟩, s1, s2, rfl, rfl, s3, s4, rfl, ho, rfl, hne, h⟩
  have hd : ∀ d ∈ c, Digit d := fun d hd => (isDigit_iff d).1 (h d hd)
  refine ⟨?_, by simp⟩
  rcases ho with ⟨-, rfl⟩ | ⟨e, -, rfl, he⟩
  · exact .plain hne hd
  · exact .signed (by simpa using he) hne hd

theorem sound_int {n : Nat} : ParsesTo Exact n int (fun s raw =>
    ∃ sg u, s = sg ++ u ∧ ((raw.neg = true ∧ sg = ['-']) ∨ (raw.neg = false ∧ sg = [])) ∧
      RawOk u ⟨raw.slice, raw.base⟩) := by
  refine sound_pmap (sound_pair exactRel (sound_opt exactRel (sound_chr exactRel '-')) sound_uint) ?_
  rintro s ⟨o, raw⟩ ⟨s1, s2, rfl, ho, h⟩
  refine ⟨s1, s2, rfl, ?_, h⟩
  rcases ho with ⟨h, rfl⟩ | ⟨c, h, rfl⟩ <;> (simp only at h; simp [h])

theorem sound_floatOrInt {n : Nat} (x : ParseExt) :
    ParsesTo Exact n (floatOrInt x) (fun s v => ValueText x false s v) := by
  refine sound_mapResFail (sound_recognizer (sound_pair exactRel sound_int (sound_pair exactRel
    (sound_opt exactRel sound_dotFraction) (sound_opt exactRel sound_eExponent)))) ?_
  rintro s ⟨txt, raw, fr, ex⟩ v hyp h
  dsimp only at hyp h
  obtain ⟨rfl, s1, s2, rfl, ⟨sg, u, rfl, hsg, hu, hb, hbd, hne⟩, s3, s4, rfl, hfr, hex⟩ := hyp
  dsimp only at hu hb hbd hne
  have hfloat : FracText s3 → ExpText s4 → s3 ≠ [] ∨ s4 ≠ [] →
      parseFloat x (sg ++ u ++ (s3 ++ s4)) = .ok v → ValueText x false (sg ++ u ++ (s3 ++ s4)) v := by
    intro h3 h4 hne hp
    unfold parseFloat at hp
    split at hp
    · rename_i f hf
      cases hp
      rw [← List.append_assoc] at hf ⊢
      refine .float ?_ hu (by simp) h3 h4 hne hf
      rcases hsg with h | h
      · exact .inr h.2
      · exact .inl h.2
    · cases hp
  rcases hfr with ⟨rfl, rfl⟩ | ⟨fr', rfl, hfr, hfrne⟩
  · rcases hex with ⟨rfl, rfl⟩ | ⟨ex', rfl, hex, hexne⟩
    · simp only [Option.isSome_none, Bool.or_self, Bool.false_eq_true, if_false] at h
      unfold parseInt at h
      rw [fromStrRadix_eq hb hbd hne] at h
      by_cases hlt : numeral raw.base raw.slice < 18446744073709551616
      · rw [if_pos hlt] at h
        simp only at h
        rcases hsg with ⟨hneg, rfl⟩ | ⟨hneg, rfl⟩
        · rw [hneg] at h
          simp only [if_true] at h
          split at h
          · rename_i hlt'
            cases h
            simpa using ValueText.nint hu hlt'
          · cases h
        · rw [hneg] at h
          simp only [Bool.false_eq_true, if_false] at h
          cases h
          simpa using ValueText.uint hu hlt
      · rw [if_neg hlt] at h; cases h
    · simp only [Option.isSome_some, Bool.or_true, if_true] at h
      exact hfloat .none hex (.inr hexne) h
  · simp only [Option.isSome_some, Bool.true_or, if_true] at h
    refine hfloat hfr ?_ (.inl hfrne) h
    rcases hex with ⟨rfl, rfl⟩ | ⟨ex', rfl, hex, hexne⟩
    · exact .none
    · exact hex

/-! ## Strings -/

theorem quoted_plain {strict : Bool} {q : Char} {s t : List Char}
    (h : ∀ c ∈ s, PlainChar strict c ∧ c ≠ q ∧ c ≠ '\\') (ht : Quoted strict q t) : Quoted strict q (s ++ t) := by
  induction s with
  | nil => exact ht
  | cons c s ih =>
    obtain ⟨h1, h2, h3⟩ := h c (by simp)
    exact .plain h1 h2 h3 (ih fun d hd => h d (by simp [hd]))

theorem isUnescapedBchar_iff (c : Char) :
    isUnescapedBchar c = true ↔ PlainChar true c ∧ c ≠ '\'' ∧ c ≠ '\\' := by
  have h1 : c = '\'' ↔ c.toNat = 39 := by rw [← Char.toNat_inj]; rfl
  have h2 : c = '\\' ↔ c.toNat = 92 := by rw [← Char.toNat_inj]; rfl
  simp only [isUnescapedBchar, PlainChar, ne_eq, h1, h2, Bool.or_eq_true, Bool.and_eq_true, decide_eq_true_eq,
    forall_const]
  omega

theorem isUnescapedSchar_iff (c : Char) :
    isUnescapedSchar c = true ↔ PlainChar true c ∧ c ≠ '"' ∧ c ≠ '\\' := by
  have h1 : c = '"' ↔ c.toNat = 34 := by rw [← Char.toNat_inj]; rfl
  have h2 : c = '\\' ↔ c.toNat = 92 := by rw [← Char.toNat_inj]; rfl
  simp only [isUnescapedSchar, PlainChar, ne_eq, h1, h2, Bool.or_eq_true, Bool.and_eq_true, decide_eq_true_eq,
    forall_const]
  omega

theorem PlainChar.weaken {strict : Bool} {c : Char} (h : PlainChar true c) : PlainChar strict c :=
  ⟨h.1, h.2.1, h.2.2.1, fun _ => h.2.2.2 rfl⟩

theorem Quoted.weaken {strict : Bool} {q : Char} {s : List Char} (h : Quoted true q s) : Quoted strict q s := by
  induction h with
  | nil => exact .nil
  | plain h1 h2 h3 _ ih => exact .plain h1.weaken h2 h3 ih
  | esc _ ih => exact .esc ih

theorem sound_chars {n : Nat} {q : Char} {f : Char → Bool}
    (hf : ∀ c, f c = true ↔ PlainChar true c ∧ c ≠ q ∧ c ≠ '\\') :
    ParsesTo Exact n (recognize (many0 (alt (takeWhile1 f) sesc))) (fun s a => a = s ∧ Quoted true q s) := by
  have h1 : ParsesTo Exact n (alt (takeWhile1 f) sesc)
      (fun s _ => (s ≠ [] ∧ ∀ c ∈ s, PlainChar true c ∧ c ≠ q ∧ c ≠ '\\') ∨ ∃ c, s = ['\\', c]) := by
    refine sound_alt ((sound_takeWhile1 exactRel _).imp ?_) ((sound_preceded exactRel (sound_chr exactRel _)
      (sound_recognize (sound_satisfy exactRel _))).imp ?_)
    · exact fun s a h => .inl ⟨h.2.1, fun c hc => (hf c).1 (h.2.2 c hc)⟩
    · rintro s a ⟨s1, s2, b, rfl, rfl, rfl, c, rfl, -⟩
      exact .inr ⟨c, rfl⟩
  refine (sound_recognize (sound_many0 exactRel h1 ?_)).imp ?_
  · rintro s - (⟨h, -⟩ | ⟨c, rfl⟩)
    · exact h
    · simp
  · rintro s a ⟨rfl, as, h⟩
    refine ⟨rfl, ?_⟩
    induction h with
    | nil => exact .nil
    | cons h _ ih =>
      rcases h with ⟨-, h⟩ | ⟨c, rfl⟩
      · exact quoted_plain h ih
      · exact .esc ih

theorem sound_bchar {n : Nat} : ParsesTo Exact n bchar (fun s a => a = s ∧ Quoted true '\'' s) :=
  sound_chars isUnescapedBchar_iff

theorem sound_schar {n : Nat} : ParsesTo Exact n schar (fun s a => a = s ∧ Quoted true '"' s) :=
  sound_chars isUnescapedSchar_iff

theorem hexDecode_sound : ∀ (s : List Char) (b : List UInt8), hexDecode s = some b → HexBytes s b
  | [], b, h => by cases h; exact .nil
  | [c], b, h => by cases h
  | a :: c :: s, b, h => by
    unfold hexDecode at h
    split at h
    · rename_i h1 h2 h3
      cases h
      obtain ⟨ha, rfl⟩ := digitVal_isHex h1
      obtain ⟨hc, rfl⟩ := digitVal_isHex h2
      rw [Nat.mul_comm]
      exact .cons ha hc (hexDecode_sound s _ h3)
    · cases h

theorem hexBlank_filter (s : List Char) :
    (s.filter fun c => !isAsciiWhitespace c) = s.filter fun c => ¬ HexBlank c := by
  congr 1
  funext c
  rw [Bool.eq_iff_iff]
  simp [isAsciiWhitespace, HexBlank, Blank]
  grind

theorem sound_value {n : Nat} (x : ParseExt) : ParsesTo Exact n (value x) (fun s v => ValueText x false s v) := by
  refine sound_alt (sound_floatOrInt x) (sound_alt ?_ ?_)
  · refine sound_pmap (G := fun s t => ValueText x false s (.text t)) (sound_mapResFail (sound_preceded exactRel
      (sound_chr exactRel _) (sound_terminated exactRel sound_schar (sound_chr exactRel _))) ?_) (fun s a h => h)
    rintro s a t ⟨s1, s2, b, rfl, rfl, s3, s4, c, rfl, ⟨rfl, h⟩, rfl⟩ hu
    unfold unescapeOr at hu
    split at hu
    · rename_i t' ht; cases hu; exact .text h.weaken ht
    · cases hu
  · refine sound_pmap (G := fun s b => ValueText x false s (.bytes b)) (sound_alt ?_ (sound_alt ?_ ?_))
      (fun s a h => h)
    · refine sound_pmap (G := fun s t => ValueText x false s (.bytes t.toUTF8.data.toList)) (sound_mapResFail
        (sound_preceded exactRel (sound_tag exactRel "'") (sound_terminated exactRel sound_bchar
          (sound_tag exactRel "'"))) ?_) (fun s a h => h)
      rintro s a t ⟨s1, s2, b, rfl, ⟨rfl, -⟩, s3, s4, c, rfl, ⟨rfl, h⟩, rfl, -⟩ hu
      unfold unescapeOr at hu
      split at hu
      · rename_i t' ht; cases hu; exact .bytes h.weaken ht
      · cases hu
    · refine sound_mapResFail
        (sound_preceded exactRel (sound_tag exactRel "h'") (sound_terminated exactRel sound_bchar
          (sound_tag exactRel "'"))) ?_
      rintro s a t ⟨s1, s2, b, rfl, ⟨rfl, -⟩, s3, s4, c, rfl, ⟨rfl, h⟩, rfl, -⟩ hu
      unfold parseHex at hu
      split at hu
      · rename_i t' ht
        cases hu
        have := hexDecode_sound _ _ ht
        rw [hexBlank_filter] at this
        exact .hex h.weaken this
      · cases hu
    · refine sound_mapResFail
        (sound_preceded exactRel (sound_tag exactRel "b64'") (sound_terminated exactRel sound_bchar
          (sound_chr exactRel '\''))) ?_
      rintro s a t ⟨s1, s2, b, rfl, ⟨rfl, -⟩, s3, s4, c, rfl, ⟨rfl, h⟩, rfl⟩ hu
      unfold parseBase64 at hu
      split at hu
      · rename_i t' ht; cases hu; exact .base64 h.weaken ht
      · cases hu

theorem ValueText.ne {x : ParseExt} {st : Bool} {s : List Char} {v : Ast.Value} (h : ValueText x st s v) : s ≠ [] := by
  cases h with
  | uint h _ => exact h.ne
  | float _ h _ _ _ _ _ => have := h.ne; simp [this]
  | _ => simp

/-! ## Occurrences -/

theorem sound_occur {n : Nat} : ParsesTo Exact n occur (fun s o => OccurText s o) := by
  refine sound_alt ?_ (sound_alt ?_ ?_)
  · refine sound_mapRes (sound_pair exactRel (sound_opt exactRel sound_uintU64) (sound_pair exactRel
      (sound_tag exactRel "*") (sound_opt exactRel sound_uintU64))) ?_
    rintro s ⟨lo, st, up⟩ o ⟨s1, s2, rfl, hlo, s3, s4, rfl, ⟨rfl, -⟩, hup⟩ h
    simp only at h hlo hup
    rcases hlo with ⟨rfl, rfl⟩ | ⟨k, rfl, hk, hk'⟩
    · rcases hup with ⟨rfl, rfl⟩ | ⟨m, rfl, hm, hm'⟩
      · cases h; exact .star
      · cases h; exact .upper hm hm'
    · rcases hup with ⟨rfl, rfl⟩ | ⟨m, rfl, hm, hm'⟩
      · cases h; exact .lower hk hk'
      · cases h; exact .both hk hk' hm hm'
  · exact sound_pmap (sound_tag exactRel "+") (by rintro s a ⟨rfl, -⟩; exact .plus)
  · exact sound_pmap (sound_tag exactRel "?") (by rintro s a ⟨rfl, -⟩; exact .optional)

end Cddl
