import Verif.Spec.Blame
import Verif.Proofs.ParseSlice
import Verif.Proofs.ParseMono

/-!
# Errors of the parser quote the text
-/

namespace Cddl

/-- An outcome on `i` that blames a part of `i`.  With `lax` an error may say anything. -/
def PR.Blames {α : Type} (x : ParseExt) (lax : Bool) (i : List Char) : PR α → Prop
  | .ok r _ => r <:+ i
  | .err e => lax = true ∨ ∃ r, r <:+ i ∧ e = unparseable r
  | .fail e => ∃ s, s <:+: i ∧ BadToken x s e
  | .panic => True
  | .oof => True

/-- A parser whose errors blame a part of the input. -/
def Blames {α : Type} (x : ParseExt) (lax : Bool) (p : P α) : Prop := ∀ i, (p i).Blames x lax i

section
variable {α β γ : Type} {x : ParseExt} {lax : Bool}

theorem PR.Blames.lift {a : PR α} {r i : List Char} (h : a.Blames x lax r) (hr : r <:+ i) : a.Blames x lax i := by
  cases a with
  | ok r' _ => exact h.trans hr
  | err e =>
    rcases h with h | ⟨r', h, he⟩
    · exact .inl h
    · exact .inr ⟨r', h.trans hr, he⟩
  | fail e => obtain ⟨s, h, he⟩ := h; exact ⟨s, h.trans hr.isInfix, he⟩
  | _ => trivial

theorem PR.Blames.loosen {a : PR α} {i : List Char} (h : a.Blames x lax i) : a.Blames x true i := by
  cases a with
  | err e => exact .inl rfl
  | _ => exact h

theorem Blames.loosen {p : P α} (h : Blames x lax p) : Blames x true p := fun i => (h i).loosen

theorem PR.Blames.bind {a : PR α} {f : List Char → α → PR β} {i : List Char} (h : a.Blames x lax i)
    (hf : ∀ r v, a = .ok r v → r <:+ i → (f r v).Blames x lax r) : (a.bind f).Blames x lax i := by
  cases a with
  | ok r v => exact (hf r v rfl h).lift h
  | _ => exact h

theorem PR.Blames.ok {r i : List Char} (a : α) (h : r <:+ i) : (PR.ok r a).Blames x lax i := h

theorem PR.Blames.err {r i : List Char} (h : r <:+ i) : (PR.err (unparseable r) : PR α).Blames x lax i := .inr ⟨r, h, rfl⟩

theorem blames_pmap {p : P α} (f : α → β) (h : Blames x lax p) : Blames x lax (pmap f p) := fun i =>
  (h i).bind fun r _ _ _ => List.suffix_refl r

theorem blames_pair {p : P α} {q : P β} (h : Blames x lax p) (h' : Blames x lax q) : Blames x lax (pair p q) := fun i =>
  (h i).bind fun r _ _ _ => (h' r).bind fun r' _ _ _ => List.suffix_refl r'

theorem blames_preceded {p : P α} {q : P β} (h : Blames x lax p) (h' : Blames x lax q) : Blames x lax (preceded p q) :=
  fun i => (h i).bind fun r _ _ _ => h' r

theorem blames_terminated {p : P α} {q : P β} (h : Blames x lax p) (h' : Blames x lax q) :
    Blames x lax (terminated p q) := fun i =>
  (h i).bind fun r _ _ _ => (h' r).bind fun r' _ _ _ => List.suffix_refl r'

theorem blames_delimited {p : P α} {q : P β} {s : P γ} (h : Blames x lax p) (h' : Blames x lax q)
    (h'' : Blames x lax s) : Blames x lax (delimited p q s) := blames_preceded h (blames_terminated h' h'')

theorem blames_opt {p : P α} (h : Blames x true p) : Blames x lax (opt p) := fun i => by
  have := h i
  revert this
  simp only [opt]
  cases p i with
  | ok r a => exact id
  | err e => exact fun _ => List.suffix_refl i
  | _ => exact id

theorem blames_alt {p q : P α} (h : Blames x true p) (h' : Blames x lax q) : Blames x lax (alt p q) := fun i => by
  have := h i
  revert this
  simp only [alt]
  cases p i with
  | err e => exact fun _ => h' i
  | _ => exact id

theorem blames_many0 {p : P α} (h : Blames x true p) : Blames x lax (many0 p) := by
  have key : ∀ k i, (many0Loop p k i).Blames x lax i := by
    intro k
    induction k with
    | zero => intro i; trivial
    | succ k ih =>
      intro i
      have := h i
      revert this
      simp only [many0Loop]
      cases p i with
      | ok r a =>
        intro hr
        dsimp only
        split
        · exact .err (List.suffix_refl i)
        · exact PR.Blames.lift (PR.Blames.bind (ih r) fun r' as _ _ => .ok (a :: as) (List.suffix_refl r')) hr
      | err e => exact fun _ => List.suffix_refl i
      | _ => exact id
  exact fun i => key _ i

theorem blames_many1 {p : P α} (h : Blames x lax p) : Blames x lax (many1 p) := fun i =>
  (h i).bind fun r _ _ _ => (blames_many0 h.loosen r).bind fun r' _ _ _ => List.suffix_refl r'

theorem blames_sepList1 {p : P α} {s : P β} (hs : Blames x true s) (h : Blames x lax p) :
    Blames x lax (sepList1 s p) := by
  have key : ∀ k i, (sepLoop s p k i).Blames x lax i := by
    intro k
    induction k with
    | zero => intro i; trivial
    | succ k ih =>
      intro i
      have := hs i
      revert this
      simp only [sepLoop]
      cases s i with
      | ok r a =>
        intro hr
        dsimp only
        split
        · exact .err hr
        · have := h r
          revert this
          cases p r with
          | ok r' b => exact fun hr' => PR.Blames.lift (PR.Blames.bind (ih r') fun r'' as _ _ => .ok (b :: as) (List.suffix_refl r'')) (hr'.trans hr)
          | err e => exact fun _ => List.suffix_refl i
          | fail e => exact fun hf => PR.Blames.lift (a := (.fail e : PR (List α))) hf hr
          | _ => exact fun _ => trivial
      | err e => exact fun _ => List.suffix_refl i
      | _ => exact id
  exact fun i => (h i).bind fun r _ _ _ => (key _ r).bind fun r' _ _ _ => List.suffix_refl r'

theorem blames_recognizer {p : P α} (h : Blames x lax p) : Blames x lax (recognizer p) := fun i =>
  (h i).bind fun r _ _ _ => List.suffix_refl r

theorem blames_recognize {p : P α} (h : Blames x lax p) : Blames x lax (recognize p) := fun i =>
  (h i).bind fun r _ _ _ => List.suffix_refl r

theorem blames_mapRes {p : P α} {f : α → Except ParseError β} (h : Blames x lax p) (hf : ∀ a, ∃ b, f a = .ok b) :
    Blames x lax (mapRes p f) := fun i =>
  (h i).bind fun r a _ _ => by
    obtain ⟨b, hb⟩ := hf a
    rw [hb]
    exact List.suffix_refl r

theorem blames_mapResFail {p : P α} {G : List Char → α → Prop} {f : α → Except ParseError β} (h : Blames x lax p)
    (hp : ∀ n, ParsesTo Exact n p G) (hf : ∀ s a e, G s a → f a = .error e → BadToken x s e) :
    Blames x lax (mapResFail p f) := fun i => by
  have h1 := h i
  have h2 := hp i.length i (Nat.le_refl _)
  revert h1 h2
  simp only [mapResFail]
  cases p i with
  | ok r a =>
    rintro h1 ⟨s, h3, h4⟩
    simp only [PR.bind]
    cases hb : f a with
    | ok b => exact h1
    | error e => exact ⟨s, ⟨[], r, by rw [h3]; simp⟩, hf s a e h4 hb⟩
  | _ => exact fun h _ => h

theorem blames_tag (t : String) : Blames x lax (tag t) := fun i => by
  simp only [tag]
  cases h : stripPrefix t.toList i with
  | some r => exact ⟨t.toList, (stripPrefix_eq_some.1 h).symm⟩
  | none => exact .err (List.suffix_refl i)

theorem blames_satisfy (f : Char → Bool) : Blames x lax (satisfy f)
  | [] => .err (List.suffix_refl [])
  | c :: i => by
    simp only [satisfy]
    split
    · exact List.suffix_cons c i
    · exact .err (List.suffix_refl _)

theorem blames_takeWhile0 (f : Char → Bool) : Blames x lax (takeWhile0 f) := fun _ => List.dropWhile_suffix f

theorem blames_takeWhile1 (f : Char → Bool) : Blames x lax (takeWhile1 f) := fun i => by
  simp only [takeWhile1]
  split
  · exact .err (List.suffix_refl i)
  · exact List.dropWhile_suffix f

theorem blames_notLineEnding : Blames x lax notLineEnding := fun i => by
  have h : i.dropWhile (fun c => c != '\r' && c != '\n') <:+ i := List.dropWhile_suffix _
  revert h
  simp only [notLineEnding]
  split
  · rename_i h; rw [h]; exact id
  · exact fun _ => .err (List.suffix_refl i)
  · exact id

end

/-! ## Tokens -/

section
variable {x : ParseExt} {lax : Bool}

theorem blames_ws : Blames x lax ws :=
  blames_recognize (blames_many0 (blames_alt (blames_takeWhile1 _)
    (blames_preceded (blames_satisfy _) blames_notLineEnding)))

theorem blames_optcom : Blames x lax optcom :=
  blames_pmap _ (blames_pair blames_ws (blames_opt (blames_pair (blames_tag _) blames_ws)))

theorem blames_ident : Blames x lax ident :=
  blames_recognize (blames_preceded (blames_takeWhile1 _) (blames_many0 (blames_recognize (blames_preceded
    (blames_opt (blames_many1 (blames_satisfy _))) (blames_alt (blames_takeWhile1 _) (blames_takeWhile1 _))))))

theorem blames_uint : Blames x lax uint :=
  blames_alt (blames_pmap _ (blames_preceded (blames_tag _) (blames_takeWhile1 _)))
    (blames_alt (blames_pmap _ (blames_preceded (blames_tag _) (blames_recognize (blames_many1 (blames_satisfy _)))))
      (blames_pmap _ (blames_alt (blames_tag _) (blames_recognize (blames_pair (blames_satisfy _) (blames_takeWhile0 _))))))

/-- A number token with its digits. -/
def RawText (s : List Char) (raw : RawUint) : Prop :=
  RawOk s raw ∧ NumeralText s raw.slice (numeral raw.base raw.slice)

theorem sound_uint_text {n : Nat} : ParsesTo Exact n uint RawText := by
  refine sound_alt ?_ (sound_alt ?_ ?_)
  · refine sound_pmap (sound_preceded exactRel (sound_tag exactRel "0x") (sound_takeWhile1 exactRel _)) ?_
    rintro s a ⟨s1, s2, b, rfl, ⟨rfl, -⟩, rfl, hne, h⟩
    have hd : ∀ d ∈ a, HexDigit d := fun d hd => (isHexDigit_iff d).1 (h d hd)
    exact ⟨⟨.hex hne hd, by simp, fun c hc => digitVal_hex (hd c hc), hne⟩, .hex (.hex hne hd)⟩
  · have hstar : ∀ s as, Star (fun s c => s = [c] ∧ ("01".toList.contains c) = true) s as →
        ∀ p ∈ s, p = '0' ∨ p = '1' := by
      intro s as h
      induction h with
      | nil => simp
      | cons h _ ih =>
        obtain ⟨rfl, h⟩ := h
        intro p hp
        rcases List.mem_append.1 hp with hp | hp
        · have hpa := List.mem_singleton.1 hp
          subst hpa
          simpa using h
        · exact ih p hp
    refine sound_pmap (sound_preceded exactRel (sound_tag exactRel "0b") (sound_recognize
      (sound_many1 exactRel (sound_satisfy exactRel _) (by rintro s a ⟨rfl, -⟩; simp)))) ?_
    rintro s a ⟨s1, s2, b, rfl, ⟨rfl, -⟩, rfl, as, s3, c, s4, bs, rfl, -, h3, h4⟩
    have hd : ∀ d ∈ s3 ++ s4, d = '0' ∨ d = '1' := hstar _ _ (.cons h3 h4)
    have hne : s3 ++ s4 ≠ [] := by rw [h3.1]; simp
    exact ⟨⟨.bin hne hd, by simp, fun c hc => digitVal_bin (hd c hc), hne⟩, .bin (.bin hne hd)⟩
  · refine sound_pmap (G := fun s a => a = s ∧ (s = ['0'] ∨ ∃ c ds, s = c :: ds ∧ Digit c ∧ c ≠ '0' ∧ ∀ d ∈ ds, Digit d))
      (sound_alt ((sound_tag exactRel "0").imp ?_) ((sound_recognize (sound_pair exactRel (sound_satisfy exactRel _)
        (sound_takeWhile0 exactRel _))).imp ?_)) ?_
    · rintro s a ⟨rfl, rfl⟩; exact ⟨rfl, .inl rfl⟩
    · rintro s a ⟨rfl, ⟨c, t⟩, s1, s2, rfl, ⟨rfl, hc⟩, rfl, ht⟩
      refine ⟨rfl, .inr ⟨c, t, rfl, ?_, ?_, fun d hd => (isDigit_iff d).1 (ht d hd)⟩⟩
      · have key : ∀ c ∈ "123456789".toList, '0' ≤ c ∧ c ≤ '9' := by decide
        exact key c (by simpa using hc)
      · rintro rfl; simp only at hc; revert hc; decide
    · rintro s a ⟨rfl, rfl | ⟨c, ds, rfl, hc, h0, hds⟩⟩
      · exact ⟨⟨.zero, by decide, by unfold BaseDigits; decide, by simp⟩, .dec .zero (by unfold Digit; decide)⟩
      · refine ⟨⟨.dec hc h0 hds, by simp, fun d hd => ?_, by simp⟩, .dec (.dec hc h0 hds) (by simpa using ⟨hc, hds⟩)⟩
        rcases List.mem_cons.1 hd with rfl | hd
        · exact digitVal_dec hc
        · exact digitVal_dec (hds d hd)

theorem RawText.big {s : List Char} {raw : RawUint} (h : RawText s raw) (hn : fromStrRadix raw.slice raw.base = none) :
    2 ^ 64 ≤ numeral raw.base raw.slice := by
  obtain ⟨⟨-, h2, h3, h4⟩, -⟩ := h
  rw [fromStrRadix_eq h2 h3 h4] at hn
  split at hn
  · cases hn
  · omega

theorem RawText.val {s : List Char} {raw : RawUint} {n : Nat} (h : RawText s raw)
    (hn : fromStrRadix raw.slice raw.base = some n) : n = numeral raw.base raw.slice := by
  obtain ⟨⟨-, h2, h3, h4⟩, -⟩ := h
  rw [fromStrRadix_eq h2 h3 h4] at hn
  split at hn
  · cases hn; rfl
  · cases hn

theorem blames_uintU64 : Blames x lax uintU64 := by
  refine blames_mapResFail blames_uint (fun n => sound_uint_text) ?_
  intro s raw e h he
  split at he
  · cases he
  · rename_i hn
    cases he
    exact .uint h.2 (h.big hn)

theorem blames_int : Blames x lax int :=
  blames_pmap _ (blames_pair (blames_opt (blames_satisfy _)) blames_uint)

theorem sound_int_text {n : Nat} : ParsesTo Exact n int (fun s raw =>
    ∃ sg u, s = sg ++ u ∧ ((raw.neg = true ∧ sg = ['-']) ∨ (raw.neg = false ∧ sg = [])) ∧
      RawText u ⟨raw.slice, raw.base⟩) := by
  refine sound_pmap (sound_pair exactRel (sound_opt exactRel (sound_chr exactRel '-')) sound_uint_text) ?_
  rintro s ⟨o, raw⟩ ⟨s1, s2, rfl, ho, h⟩
  refine ⟨s1, s2, rfl, ?_, h⟩
  rcases ho with ⟨h, rfl⟩ | ⟨c, h, rfl⟩ <;> (simp only at h; simp [h])

theorem blames_dotFraction : Blames x lax dotFraction :=
  blames_recognize (blames_pair (blames_satisfy _) (blames_takeWhile1 _))

theorem blames_eExponent : Blames x lax eExponent :=
  blames_recognize (blames_pair (blames_satisfy _) (blames_pair (blames_opt (blames_satisfy _)) (blames_takeWhile1 _)))

theorem blames_floatOrInt : Blames x lax (floatOrInt x) := by
  refine blames_mapResFail (blames_recognizer (blames_pair blames_int (blames_pair (blames_opt blames_dotFraction)
    (blames_opt blames_eExponent)))) (fun n => sound_recognizer (sound_pair exactRel sound_int_text (sound_pair exactRel
    (sound_opt exactRel sound_dotFraction) (sound_opt exactRel sound_eExponent)))) ?_
  rintro s ⟨txt, raw, fr, ex⟩ e hyp h
  dsimp only at hyp h
  obtain ⟨rfl, s1, s2, rfl, ⟨sg, u, rfl, hsg, hraw⟩, s3, s4, rfl, hfr, hex⟩ := hyp
  have hfloat : FracText s3 → ExpText s4 → s3 ≠ [] ∨ s4 ≠ [] →
      parseFloat x (sg ++ u ++ (s3 ++ s4)) = .error e → BadToken x (sg ++ u ++ (s3 ++ s4)) e := by
    intro h3 h4 hne hp
    unfold parseFloat at hp
    split at hp
    · cases hp
    · rename_i hf
      cases hp
      rw [← List.append_assoc] at hf ⊢
      refine .float ?_ hraw.1.1 h3 h4 hne hf
      rcases hsg with h | h
      · exact .inr h.2
      · exact .inl h.2
  rcases hfr with ⟨rfl, rfl⟩ | ⟨fr', rfl, hfr, hfrne⟩
  · rcases hex with ⟨rfl, rfl⟩ | ⟨ex', rfl, hex, hexne⟩
    · simp only [Option.isSome_none, Bool.or_self, Bool.false_eq_true, if_false] at h
      unfold parseInt at h
      cases hn : fromStrRadix raw.slice raw.base with
      | none =>
        rw [hn] at h
        cases h
        have hb := hraw.big hn
        rcases hsg with ⟨hneg, rfl⟩ | ⟨hneg, rfl⟩
        · simpa using BadToken.nint (x := x) hraw.2 (Nat.le_trans (by decide) hb)
        · simpa using BadToken.uint (x := x) hraw.2 hb
      | some n =>
        rw [hn] at h
        have hv := hraw.val hn
        dsimp only at h hv
        rcases hsg with ⟨hneg, rfl⟩ | ⟨hneg, rfl⟩
        · rw [hneg, if_pos rfl] at h
          split at h
          · cases h
          · cases h
            simpa using BadToken.nint (x := x) hraw.2 (by dsimp only; omega)
        · rw [hneg] at h
          cases h
    · simp only [Option.isSome_some, Bool.or_true, if_true] at h
      exact hfloat .none hex (.inr hexne) h
  · simp only [Option.isSome_some, Bool.true_or, if_true] at h
    refine hfloat hfr ?_ (.inl hfrne) h
    rcases hex with ⟨rfl, rfl⟩ | ⟨ex', rfl, hex, hexne⟩
    · exact .none
    · exact hex

theorem blames_chars (f : Char → Bool) : Blames x lax (recognize (many0 (alt (takeWhile1 f) sesc))) :=
  blames_recognize (blames_many0 (blames_alt (blames_takeWhile1 _)
    (blames_preceded (blames_satisfy _) (blames_recognize (blames_satisfy _)))))

theorem hexBytes_decode {s : List Char} {b : List UInt8} (h : HexBytes s b) : hexDecode s ≠ none := by
  induction h with
  | nil => simp [hexDecode]
  | cons ha hb _ ih =>
    unfold hexDecode
    rw [(digitVal_hex ha).1, (digitVal_hex hb).1]
    split
    · simp
    · rename_i hx
      cases hd : hexDecode _ with
      | none => exact absurd hd ih
      | some bs => exact absurd hd (hx _ _ _ rfl rfl)

theorem blames_value : Blames x lax (value x) := by
  refine blames_alt blames_floatOrInt (blames_alt (blames_pmap _ ?_) (blames_pmap _ (blames_alt (blames_pmap _ ?_)
    (blames_alt ?_ ?_))))
  · refine blames_mapResFail (blames_delimited (blames_satisfy _) (blames_chars _) (blames_satisfy _))
      (fun n => sound_preceded exactRel (sound_chr exactRel _) (sound_terminated exactRel sound_schar (sound_chr exactRel _))) ?_
    rintro s a e ⟨s1, s2, b, rfl, rfl, s3, s4, c, rfl, ⟨rfl, h⟩, rfl⟩ hu
    unfold unescapeOr at hu
    split at hu
    · cases hu
    · rename_i ht; cases hu; exact .text h ht
  · refine blames_mapResFail (blames_delimited (blames_tag _) (blames_chars _) (blames_tag _))
      (fun n => sound_preceded exactRel (sound_tag exactRel "'") (sound_terminated exactRel sound_bchar
          (sound_tag exactRel "'"))) ?_
    rintro s a e ⟨s1, s2, b, rfl, ⟨rfl, -⟩, s3, s4, c, rfl, ⟨rfl, h⟩, rfl, -⟩ hu
    unfold unescapeOr at hu
    split at hu
    · cases hu
    · rename_i ht; cases hu; exact .bytes h ht
  · refine blames_mapResFail (blames_delimited (blames_tag _) (blames_chars _) (blames_tag _))
      (fun n => sound_preceded exactRel (sound_tag exactRel "h'") (sound_terminated exactRel sound_bchar
          (sound_tag exactRel "'"))) ?_
    rintro s a e ⟨s1, s2, b, rfl, ⟨rfl, -⟩, s3, s4, c, rfl, ⟨rfl, h⟩, rfl, -⟩ hu
    unfold parseHex at hu
    split at hu
    · cases hu
    · rename_i ht
      cases hu
      rw [hexBlank_filter] at ht ⊢
      exact .hex h fun b hb => hexBytes_decode hb ht
  · refine blames_mapResFail (blames_delimited (blames_tag _) (blames_chars _) (blames_satisfy _))
      (fun n => sound_preceded exactRel (sound_tag exactRel "b64'") (sound_terminated exactRel sound_bchar
          (sound_chr exactRel '\''))) ?_
    rintro s a e ⟨s1, s2, b, rfl, ⟨rfl, -⟩, s3, s4, c, rfl, ⟨rfl, h⟩, rfl⟩ hu
    unfold parseBase64 at hu
    split at hu
    · cases hu
    · rename_i ht; cases hu; exact .base64 h ht

theorem blames_occur : Blames x lax occur := by
  refine blames_alt (blames_mapRes (blames_pair (blames_opt blames_uintU64) (blames_pair (blames_tag _)
    (blames_opt blames_uintU64))) ?_) (blames_alt (blames_pmap _ (blames_tag _)) (blames_pmap _ (blames_tag _)))
  intro a
  split <;> exact ⟨_, rfl⟩

end

/-! ## Types, groups, rules -/

section
variable {x : ParseExt} {lax : Bool}

/-- The recursive parsers blame a part of the input. -/
structure RecBlames (x : ParseExt) (r : PRec) : Prop where
  type2 : Blames x false r.type2
  group : Blames x false r.group

variable {r : PRec}

theorem Blames.any {α : Type} {p : P α} (h : Blames x false p) : Blames x lax p := fun i => by
  cases lax
  · exact h i
  · exact (h i).loosen

theorem blames_type1 (hr : RecBlames x r) : Blames x lax (type1 r) :=
  blames_pmap _ (blames_pair hr.type2.any (blames_opt (blames_preceded blames_ws (blames_pair
    (blames_alt (blames_tag _) (blames_alt (blames_tag _) (blames_preceded (blames_tag _) blames_ident)))
    (blames_preceded blames_ws hr.type2.any)))))

theorem blames_slash : Blames x lax slash := blames_delimited blames_ws (blames_tag _) blames_ws

theorem blames_ty (hr : RecBlames x r) : Blames x lax (ty r) := blames_sepList1 blames_slash (blames_type1 hr)

theorem blames_nameGeneric (hr : RecBlames x r) : Blames x lax (nameGenericP r) :=
  blames_pmap _ (blames_pair blames_ident (blames_opt (blames_delimited (blames_pair (blames_tag _) blames_ws)
    (blames_sepList1 (blames_pair (blames_tag _) blames_ws) (blames_terminated (blames_type1 hr) blames_ws))
    (blames_tag _))))

theorem blames_memberkeyTail (hr : RecBlames x r) : Blames x lax (memberkeyTail r) :=
  blames_preceded (blames_pair (blames_tag _) blames_ws) (blames_ty hr)

theorem blames_arrowTail (hr : RecBlames x r) : Blames x lax (arrowTail r) :=
  blames_pair (blames_opt (blames_terminated (blames_tag _) blames_ws))
    (blames_preceded (blames_tag _) (blames_preceded blames_ws (blames_ty hr)))

theorem ifOk_blames {α β : Type} {a : PR α} {f : List Char → α → PR β} {b : PR β} {i : List Char}
    (h : a.Blames x true i) (hf : ∀ r v, a = .ok r v → r <:+ i → (f r v).Blames x lax i) (hb : b.Blames x lax i) :
    (ifOk a f b).Blames x lax i := by
  cases a with
  | ok r v => exact hf r v rfl h
  | err e => exact hb
  | fail e => exact hb
  | _ => exact h

theorem blames_memberRest (hr : RecBlames x r) (t : Ast.Ty1) : Blames x true (memberRest r t) := fun i => by
  refine ifOk_blames (blames_arrowTail hr i) (fun r' v _ h => h) ?_
  refine ifOk_blames (blames_many0 (blames_preceded blames_slash (blames_type1 hr)) i) (fun r' v _ h => h) ?_
  exact .inl rfl

theorem blames_grpentMember (hr : RecBlames x r) (hs : RLe r (parserRec x)) :
    Blames x true (grpentMember r) := fun i => by
  have h1 := blames_terminated (lax := true) (blames_type1 hr) (blames_ws (x := x)) i
  have h2 := sound_terminated readsRel (sound_type1 (sound_parserRec (x := x) i.length).type2) (sound_ws (n := i.length)) i
    (Nat.le_refl _)
  have h3 := (type1_mono hs).terminated (PLe.refl ws) i
  simp only [grpentMember]
  revert h1 h3
  cases terminated (type1 r) ws i with
  | ok r1 first =>
    intro h1 h3
    rcases h3 with h3 | h3
    · cases h3
    rw [← h3] at h2
    obtain ⟨s, hR, s1, s2, b, rfl, hg, hw⟩ := h2
    have hrest := (blames_memberRest hr first r1).lift h1
    simp only [PR.bind]
    split
    · rename_i v
      exact ifOk_blames ((blames_memberkeyTail hr r1).lift h1) (fun r' v _ h => h) hrest
    · rename_i n as
      refine ifOk_blames ((blames_memberkeyTail hr r1).lift h1) (fun r' v hk h => ?_) hrest
      simp only [assembleBasicMember]
      split
      · exact h
      · rename_i hne
        have hcolon : ∃ r2, r1 = ':' :: r2 := by
          simp only [memberkeyTail, preceded, pair, tag] at hk
          cases hp : stripPrefix ":".toList r1 with
          | none => rw [hp] at hk; simp at hk
          | some r2 => exact ⟨r2, stripPrefix_eq_some.1 hp⟩
        obtain ⟨r2, rfl⟩ := hcolon
        rcases hR with hR | ⟨-, hR, -⟩
        · cases hg with
          | simple hg => cases hg with
            | name hg =>
              refine ⟨s1 ++ s2 ++ [':'], ⟨[], r2, by rw [hR]; simp⟩, .generic hg ?_ hw⟩
              rintro rfl
              exact hne rfl
        · cases hR
    · exact hrest
  | _ => exact fun h _ => h

theorem blames_inParens (hr : RecBlames x r) : Blames x lax (inParens r) :=
  blames_delimited (blames_satisfy _) (blames_delimited blames_ws hr.group.any blames_ws) (blames_satisfy _)

theorem blames_grpent (hr : RecBlames x r) (hs : RLe r (parserRec x)) :
    Blames x lax (grpent r) :=
  blames_pmap _ (blames_pair (blames_opt (blames_terminated blames_occur blames_ws))
    (blames_alt (blames_grpentMember hr hs) (blames_alt (blames_pmap _ blames_ident) (blames_pmap _ (blames_inParens hr)))))

theorem blames_grpchoice (hr : RecBlames x r) (hs : RLe r (parserRec x)) :
    Blames x lax (grpchoice r) := blames_many0 (blames_terminated (blames_grpent hr hs) blames_optcom)

theorem blames_group (hr : RecBlames x r) (hs : RLe r (parserRec x)) :
    Blames x lax (group r) :=
  blames_pmap _ (blames_pair (blames_grpchoice hr hs) (blames_many0 (blames_preceded
    (blames_delimited blames_ws (blames_tag _) blames_ws) (blames_grpchoice hr hs))))

theorem blames_type2 (hr : RecBlames x r) : Blames x lax (type2 x r) :=
  blames_alt (blames_pmap _ blames_value) (
  blames_alt (blames_pmap _ (blames_nameGeneric hr)) (
  blames_alt (blames_pmap _ (blames_delimited (blames_satisfy _) (blames_delimited blames_ws (blames_ty hr) blames_ws) (blames_satisfy _))) (
  blames_alt (blames_pmap _ (blames_delimited (blames_satisfy _) (blames_delimited blames_ws hr.group.any blames_ws) (blames_satisfy _))) (
  blames_alt (blames_pmap _ (blames_delimited (blames_satisfy _) (blames_delimited blames_ws hr.group.any blames_ws) (blames_satisfy _))) (
  blames_alt (blames_pmap _ (blames_preceded (blames_tag _) (blames_preceded blames_ws (blames_nameGeneric hr)))) (
  blames_alt (blames_pmap _ (blames_preceded (blames_tag _) (blames_preceded blames_ws (blames_inParens hr))))
    (blames_pmap _ (blames_preceded (blames_tag _) (blames_preceded blames_ws (blames_nameGeneric hr))))))))))

theorem blames_parsers (k : Nat) : RecBlames x (parsers x k) := by
  induction k with
  | zero => exact ⟨fun _ => trivial, fun _ => trivial⟩
  | succ k ih => exact ⟨blames_type2 ih, blames_group ih (parsers_le_rec k)⟩

theorem blames_parserRec : RecBlames x (parserRec x) :=
  ⟨fun i => by rw [parserRec_type2]; exact (blames_parsers _).type2 i,
    fun i => by rw [parserRec_group]; exact (blames_parsers _).group i⟩

theorem rle_refl (r : PRec) : RLe r r := ⟨PLe.refl _, PLe.refl _⟩

theorem blames_ruleVal : Blames x lax (ruleVal x) :=
  blames_preceded (blames_tag _) (blames_preceded blames_ws (blames_alt (blames_pmap _ (blames_ty blames_parserRec))
    (blames_pmap _ (blames_grpent blames_parserRec (rle_refl _)))))

theorem blames_rule : Blames x lax (rule x) :=
  blames_pmap _ (blames_pair (blames_pair blames_ident (blames_opt (blames_delimited (blames_pair (blames_tag _) blames_ws)
    (blames_sepList1 (blames_pair (blames_tag _) blames_ws) (blames_terminated blames_ident blames_ws)) (blames_tag _))))
    (blames_preceded blames_ws blames_ruleVal))

/-! ## Where reading ends -/

theorem many0_no_err {α : Type} {R : List Char → List Char → List Char → Prop} (hR : ReadRel R) {p : P α}
    {G : List Char → α → Prop} (hp : ∀ n, ParsesTo R n p G) (hne : ∀ s a, G s a → s ≠ []) (i : List Char)
    (e : ParseError) : many0 p i ≠ .err e := by
  have key : ∀ k i, many0Loop p k i ≠ .err e := by
    intro k
    induction k with
    | zero => intro i h; cases h
    | succ k ih =>
      intro i
      have := hp i.length i (Nat.le_refl _)
      revert this
      simp only [many0Loop]
      cases p i with
      | ok r a =>
        rintro ⟨s, h1, h2⟩
        have hlt := hR.lt h1 (hne s a h2)
        dsimp only
        rw [if_neg (by omega)]
        have := ih r
        revert this
        cases many0Loop p k r <;> simp
      | _ => simp
  exact key _ i

theorem ident_blame {i : List Char} {e : ParseError} (h : ident i = .err e) : e = unparseable i ∧ NotHead EAlpha i := by
  simp only [ident, recognize, preceded, ealpha, takeWhile1] at h
  cases ht : i.takeWhile ealphaChar with
  | nil =>
    rw [ht] at h
    simp only [PR.bind, PR.err.injEq] at h
    refine ⟨h.symm, ?_⟩
    cases i with
    | nil => trivial
    | cons c i =>
      intro hc
      rw [List.takeWhile_cons, if_pos ((ealphaChar_iff c).2 hc)] at ht
      cases ht
  | cons c t =>
    rw [ht] at h
    simp only [PR.bind] at h
    have := many0_no_err exactRel (fun n => sound_identTail) (by rintro s - ⟨ps, c, t, rfl, -⟩; simp)
      (i.dropWhile ealphaChar) e
    revert h this
    cases many0 identTail (i.dropWhile ealphaChar) with
    | err e' => intro h h'; simp only [PR.err.injEq] at h; exact absurd (congrArg PR.err h) h'
    | _ => simp

theorem Reads.suffix {i r s t : List Char} (h : Reads i r s) (ht : t <:+ r) (hne : r ≠ []) : ∃ u, i = s ++ (u ++ t) := by
  rcases h with h | ⟨-, h, -⟩
  · obtain ⟨u, hu⟩ := ht
    exact ⟨u, by rw [h, ← hu]⟩
  · exact absurd h hne

/-- The piece `t` that an error quotes ends the text, and reading got stuck there. -/
def StuckAt (x : ParseExt) (i t : List Char) : Prop :=
  ∃ s, i = s ++ t ∧ (Stuck x s t ∨ (t = [] ∧ Stuck x (s ++ ['\n']) t))

theorem Reads.stuck {i t s : List Char} (h : Reads i t s) (hs : Stuck x s t) : StuckAt x i t := by
  rcases h with h | ⟨-, rfl, rfl⟩
  · exact ⟨s, h, .inl hs⟩
  · exact ⟨i, by simp, .inr ⟨rfl, hs⟩⟩

theorem rule_blame {w i j : List Char} {e : ParseError} (h : rule x i = .err e) (hj : Reads j i w) (hw : WS w) :
    ∃ t, e = unparseable t ∧ StuckAt x j t := by
  simp only [rule, pmap, pair, preceded] at h
  have h1 := sound_ident (n := i.length) i (Nat.le_refl _)
  cases hid : ident i with
  | err e' =>
    rw [hid] at h
    simp only [PR.bind, PR.err.injEq] at h
    subst h
    obtain ⟨rfl, hn⟩ := ident_blame hid
    exact ⟨i, rfl, hj.stuck (.name hw hn)⟩
  | fail e' => rw [hid] at h; simp at h
  | panic => rw [hid] at h; simp at h
  | oof => rw [hid] at h; simp at h
  | ok r1 n =>
    rw [hid] at h h1
    obtain ⟨s1, hx1, rfl, hn⟩ := h1
    simp only [PR.bind] at h
    have h2 := sound_opt readsRel (sound_genericParm (n := r1.length)) r1 (Nat.le_refl _)
    cases ho : opt genericParm r1 with
    | err e' =>
      simp only [opt] at ho
      split at ho <;> cases ho
    | fail e' => rw [ho] at h; simp at h
    | panic => rw [ho] at h; simp at h
    | oof => rw [ho] at h; simp at h
    | ok r2 o =>
      rw [ho] at h h2
      obtain ⟨s2, hx2, ho'⟩ := h2
      have hp : GOptParams s2 ((o.getD []).map String.ofList) := by
        rcases ho' with ⟨rfl, rfl⟩ | ⟨as, rfl, w1, b, rfl, hw1, hb⟩
        · exact .none
        · exact .some hw1 hb
      simp only at h
      obtain ⟨r3, t3, w', hws, hx3, hw', -⟩ := ws_spec r2
      rw [hws] at h
      simp only at h
      have hR : Reads j r3 (w ++ (n ++ (s2 ++ w'))) :=
        readsRel.trans hj (readsRel.trans (Exact.reads hx1) (readsRel.trans hx2 hx3))
      have he : ruleVal x r3 = .err e := by
        revert h
        cases ruleVal x r3 <;> simp
      clear h
      simp only [ruleVal] at he
      rw [preceded] at he
      cases hp' : stripPrefix "=".toList r3 with
      | none =>
        simp only [tag, hp', PR.bind, PR.err.injEq] at he
        refine ⟨r3, he.symm, hR.stuck (.assign hw hn hp hw' ?_)⟩
        cases r3 with
        | nil => trivial
        | cons c r3 =>
          rintro rfl
          simp [stripPrefix] at hp'
      | some r4 =>
        have hr4 := stripPrefix_eq_some.1 hp'
        simp only [tag, hp', PR.bind] at he
        have hb := blames_preceded (lax := false) (blames_ws (x := x)) (blames_alt (blames_pmap Ast.RuleVal.assignType (blames_ty blames_parserRec))
          (blames_pmap Ast.RuleVal.assignGroup (blames_grpent blames_parserRec (rle_refl _)))) r4
        rw [he] at hb
        rcases hb with hb | ⟨t, ht, rfl⟩
        · cases hb
        · refine ⟨t, rfl, ?_⟩
          rcases hR with hR | ⟨-, hR, -⟩
          · obtain ⟨u, rfl⟩ := ht
            exact ⟨w ++ (n ++ (s2 ++ (w' ++ '=' :: u))), by rw [hR, hr4]; simp, .inl (.body hw hn hp hw')⟩
          · rw [hR] at hr4; simp at hr4

theorem cddl_blame {i : List Char} {e : ParseError} (h : allConsuming (cddl x) i = .err e) :
    ∃ t, e = unparseable t ∧ StuckAt x i t := by
  have hs := sound_cddl (x := x) (n := i.length) i (Nat.le_refl _)
  rw [allConsuming] at h
  cases hc : cddl x i with
  | ok r c =>
    rw [hc] at h hs
    obtain ⟨s, hR, hg⟩ := hs
    simp only [PR.bind] at h
    split at h
    · cases h
    · rename_i hr
      cases h
      exact ⟨r, rfl, hR.stuck (.rules hg fun h => hr (by rw [h]; rfl))⟩
  | fail e' => rw [hc] at h; simp at h
  | panic => rw [hc] at h; simp at h
  | oof => rw [hc] at h; simp at h
  | err e' =>
    rw [hc] at h
    simp only [PR.bind, PR.err.injEq] at h
    subst h
    obtain ⟨r, t, w, hws, hR, hw, -⟩ := ws_spec i
    simp only [cddl, preceded, hws, PR.bind, many1] at hc
    cases hr : terminated (rule x) ws r with
    | err e2 =>
      rw [hr] at hc
      simp only [PR.err.injEq] at hc
      subst hc
      simp only [terminated] at hr
      have hr' : rule x r = .err e2 := by
        revert hr
        cases rule x r with
        | ok r' v =>
          obtain ⟨r'', t', w', hws', -⟩ := ws_spec r'
          simp [hws']
        | _ => simp
      exact rule_blame hr' hR hw
    | fail e' => rw [hr] at hc; simp at hc
    | panic => rw [hr] at hc; simp at hc
    | oof => rw [hr] at hc; simp at hc
    | ok r' v =>
      rw [hr] at hc
      dsimp only at hc
      have := many0_no_err readsRel (fun n => sound_terminated readsRel (sound_rule (x := x) (n := n)) sound_ws)
        (by rintro s a ⟨s1, s2, -, rfl, h, -⟩; simp [h.ne]) r' e'
      cases hm : many0 (terminated (rule x) ws) r' with
      | err e2 => rw [hm] at hc this; simp at hc this; exact absurd hc this
      | _ => rw [hm] at hc; simp at hc

theorem cddl_fault {i : List Char} {e : ParseError} (h : allConsuming (cddl x) i = .fail e) :
    ∃ s, s <:+: i ∧ BadToken x s e := by
  have hb : Blames x false (cddl x) :=
    blames_preceded blames_ws (blames_many1 (blames_terminated blames_rule blames_ws))
  have := hb i
  rw [allConsuming] at h
  cases hc : cddl x i with
  | ok r c =>
    rw [hc] at h
    simp only [PR.bind] at h
    split at h <;> cases h
  | fail e' =>
    rw [hc] at h this
    cases h
    exact this
  | _ => rw [hc] at h; simp at h

theorem parse_blame {s : String} {err : Err} (h : parseCddl x s = .err err) : ∃ e, err = .parseError e ∧
    ((∃ t, e = ⟨.unparseable, String.ofList t⟩ ∧ StuckAt x s.toList t) ∨ ∃ t, t <:+: s.toList ∧ BadToken x t e) := by
  unfold parseCddl at h
  cases hc : allConsuming (cddl x) s.toList with
  | err e =>
    rw [hc] at h
    simp only [PR.toRes, Res.err.injEq] at h
    exact ⟨e, h.symm, .inl (cddl_blame hc)⟩
  | fail e =>
    rw [hc] at h
    simp only [PR.toRes, Res.err.injEq] at h
    exact ⟨e, h.symm, .inr (cddl_fault hc)⟩
  | _ => rw [hc] at h; simp [PR.toRes] at h

end

end Cddl
