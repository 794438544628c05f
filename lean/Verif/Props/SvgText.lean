import Verif.Spec.SvgText

/-!
# C78: texts in the SVG
-/

namespace Monkit.SvgText
open Go Go.Utf8
open Spec

theorem decodeRune_raw (b : UInt8) (s : Str) :
    ((decodeRune b s).2 = 1 ∧ ((decodeRune b s).1 = b.toNat ∨ (decodeRune b s).1 = runeError)) ∨
      ∀ c ∈ (b :: s).take (decodeRune b s).2, 128 ≤ c.toNat := by
  have hf : ∀ n lo hi, first b.toNat = some (n, lo, hi) → n ≠ 1 → 128 ≤ b.toNat ∧ 128 ≤ lo := by
    intro n lo hi h hn
    unfold first at h
    repeat' split at h
    all_goals simp at h
    all_goals omega
  unfold decodeRune
  split
  · exact Or.inl ⟨rfl, Or.inr rfl⟩
  · rename_i n lo hi h
    split
    · exact Or.inl ⟨rfl, Or.inl rfl⟩
    · rename_i hn
      obtain ⟨h0, h1⟩ := hf n lo hi h hn
      split
      · exact Or.inl ⟨rfl, Or.inr rfl⟩
      · rename_i b1 s
        split
        · exact Or.inl ⟨rfl, Or.inr rfl⟩
        · rename_i h2
          have h2 : 128 ≤ b1.toNat := by omega
          split
          · right; simp; omega
          · split
            · exact Or.inl ⟨rfl, Or.inr rfl⟩
            · split
              · exact Or.inl ⟨rfl, Or.inr rfl⟩
              · rename_i h3
                split
                · right; simp; omega
                · split
                  · exact Or.inl ⟨rfl, Or.inr rfl⟩
                  · split
                    · exact Or.inl ⟨rfl, Or.inr rfl⟩
                    · right; simp; omega

/-- Reading bytes that are not special. -/
theorem read_plain (x t : Str) (h : ∀ c ∈ x, c ≠ 38 ∧ c ≠ 60 ∧ c ≠ 62 ∧ c ≠ 34 ∧ c ≠ 39) : readText none (x ++ t) = (readText none t).map fun u => x ++ u := by
  induction x with
  | nil => simp
  | cons c x ih =>
    have hc := h c (by simp)
    rw [List.cons_append, readText, if_neg hc.1, if_neg (by simp [hc]), ih fun c hc => h c (by simp [hc])]
    simp [Function.comp_def]

/-- Reading a reference. -/
theorem read_ref (n x t : Str) (hn : (59 : UInt8) ∉ n) (h : reference n = some x) : readText none (38 :: n ++ 59 :: t) = (readText none t).map fun u => x ++ u := by
  have go : ∀ (n m : Str), (59 : UInt8) ∉ n → readText (some m) (n ++ 59 :: t) = readText (some (m ++ n)) (59 :: t) := by
    intro n
    induction n with
    | nil => intro m _; simp
    | cons c n ih =>
      intro m hc
      rw [List.cons_append, readText, if_neg (fun e => hc (by simp [e])), ih _ (fun h => hc (by simp [h]))]
      simp
  rw [List.cons_append, readText, if_pos rfl, go n [] hn, readText, if_pos rfl]
  simp only [List.nil_append, h]
  cases readText none t <;> rfl

/-- The texts of the references used. -/
theorem read_escape {r n : Nat} {raw : Str} (hraw : (n = 1 ∧ ∃ b : UInt8, raw = [b] ∧ (r = b.toNat ∨ r = runeError)) ∨ ∀ c ∈ raw, 128 ≤ c.toNat)
    (t : Str) : ∃ x, (readText none (escapeRune r n raw ++ t) = (readText none t).map fun u => x ++ u) ∧
      (n = (encode r).length → Scalar r → XmlChar r → raw = encode r → (¬ (r = runeError ∧ n = 1)) → x = raw) := by
  unfold escapeRune
  split
  · rename_i h; exact ⟨_, read_ref b!"#34" b!"\"" t (by decide) (by decide +kernel), fun _ _ _ e _ => by rw [e, h]; rfl⟩
  split
  · rename_i h; exact ⟨_, read_ref b!"#39" b!"'" t (by decide) (by decide +kernel), fun _ _ _ e _ => by rw [e, h]; rfl⟩
  split
  · rename_i h; exact ⟨_, read_ref b!"amp" b!"&" t (by decide) (by decide +kernel), fun _ _ _ e _ => by rw [e, h]; rfl⟩
  split
  · rename_i h; exact ⟨_, read_ref b!"lt" b!"<" t (by decide) (by decide +kernel), fun _ _ _ e _ => by rw [e, h]; rfl⟩
  split
  · rename_i h; exact ⟨_, read_ref b!"gt" b!">" t (by decide) (by decide +kernel), fun _ _ _ e _ => by rw [e, h]; rfl⟩
  split
  · rename_i h; exact ⟨_, read_ref b!"#x9" b!"\t" t (by decide) (by decide +kernel), fun _ _ _ e _ => by rw [e, h]; rfl⟩
  split
  · rename_i h; exact ⟨_, read_ref b!"#xA" b!"\n" t (by decide) (by decide +kernel), fun _ _ _ e _ => by rw [e, h]; rfl⟩
  split
  · rename_i h; exact ⟨_, read_ref b!"#xD" [13] t (by decide) (by decide +kernel), fun _ _ _ e _ => by rw [e, h]; rfl⟩
  split
  · rename_i h
    refine ⟨_, read_plain [0xEF, 0xBF, 0xBD] t (by decide), fun _ _ hx _ hne => ?_⟩
    exfalso
    simp only [Bool.or_eq_true, Bool.not_eq_true', Bool.and_eq_true, beq_iff_eq] at h
    rcases h with h | h
    · have : inCharacterRange r = true := by
        unfold XmlChar at hx
        simp only [inCharacterRange, Bool.or_eq_true, Bool.and_eq_true, beq_iff_eq, decide_eq_true_eq]
        omega
      rw [this] at h; simp at h
    · exact hne h
  · rename_i h1 h2 h3 h4 h5 h6 h7 h8 h9
    refine ⟨_, read_plain raw t ?_, fun _ _ _ _ _ => rfl⟩
    intro c hc
    have key : c.toNat ≠ 38 ∧ c.toNat ≠ 60 ∧ c.toNat ≠ 62 ∧ c.toNat ≠ 34 ∧ c.toNat ≠ 39 := by
      rcases hraw with ⟨hn, b, rfl, hr⟩ | hraw
      · have hcb : c = b := by simpa using hc
        rw [hcb]
        rcases hr with hr | hr
        · omega
        · simp [hr, hn] at h9
      · have := hraw c hc
        omega
    refine ⟨?_, ?_, ?_, ?_, ?_⟩ <;> rintro rfl <;> simp at key

/-- **C78**, markup: whatever a name or an argument is, its escaped text is one piece of character data: it has no tag, no quote and only
references that mean something. -/
theorem C78_no_markup (s : Str) : ∃ x, readText none (escapeText s) = some x := by
  have : ∀ n s, s.length = n → ∃ x, readText none (escapeText s) = some x := by
    intro n
    induction n using Nat.strongRecOn with
    | _ n ih =>
      intro s hs
      cases s with
      | nil => exact ⟨[], by simp [escapeText, readText]⟩
      | cons b s =>
        rw [escapeText]
        have hw := decodeRune_width b s
        obtain ⟨y, hy⟩ := ih (s.drop ((decodeRune b s).2 - 1)).length (by simp at hs ⊢; omega) _ rfl
        obtain ⟨x, hx, -⟩ := read_escape (r := (decodeRune b s).1) (n := (decodeRune b s).2) (raw := (b :: s).take (decodeRune b s).2) (by
          rcases decodeRune_raw b s with ⟨h, h'⟩ | h
          · left; rw [h]; exact ⟨rfl, b, by simp, h'⟩
          · exact Or.inr h) (escapeText (s.drop ((decodeRune b s).2 - 1)))
        rw [hx, hy]
        exact ⟨_, rfl⟩
  exact this _ s rfl

/-- **C78**, lossless: a text of characters that XML allows is shown as it is. -/
theorem C78_lossless (rs : List Nat) (h : ∀ r ∈ rs, XmlChar r) : readText none (escapeText (rs.flatMap encode)) = some (rs.flatMap encode) := by
  induction rs with
  | nil => simp [escapeText, readText]
  | cons r rs ih =>
    have hx := h r (by simp)
    have hs : Scalar r := by unfold XmlChar at hx; unfold Scalar; omega
    obtain ⟨b, s, e, hd⟩ := decode_encode r hs (rs.flatMap encode)
    rw [List.flatMap_cons, e, escapeText]
    have hl : 1 ≤ (encode r).length := by
      unfold encode
      repeat' split
      all_goals simp only [List.length_cons]
      all_goals omega
    have hraw : (b :: s).take (decodeRune b s).2 = encode r := by rw [hd, ← e]; simp
    have hrest : s.drop ((decodeRune b s).2 - 1) = rs.flatMap encode := by
      rw [hd]
      have : (b :: s).drop (encode r).length = rs.flatMap encode := by rw [← e]; simp
      have e1 : (encode r).length = ((encode r).length - 1) + 1 := by omega
      rw [e1, List.drop_succ_cons] at this
      exact this
    obtain ⟨x, hx1, hx2⟩ := read_escape (r := (decodeRune b s).1) (n := (decodeRune b s).2) (raw := (b :: s).take (decodeRune b s).2) (by
      rcases decodeRune_raw b s with ⟨h, h'⟩ | h
      · left; rw [h]; exact ⟨rfl, b, by simp, h'⟩
      · exact Or.inr h) (escapeText (s.drop ((decodeRune b s).2 - 1)))
    have hxe : x = encode r := by
      rw [← hraw]
      refine hx2 ?_ ?_ ?_ ?_ ?_
      · rw [hd]
      · rw [hd]; exact hs
      · rw [hd]; exact hx
      · rw [hraw, hd]
      · rw [hd]
        rintro ⟨h1, h2⟩
        simp only at h1 h2
        rw [h1] at h2
        exact absurd h2 (by decide)
    rw [hx1, hrest, ih fun r hr => h r (by simp [hr]), hxe]
    simp [e]

/-- A text with everything that needs escaping, and a letter of two bytes. -/
example : (∀ r ∈ [38, 60, 34, 39, 10, 228], XmlChar r) ∧ escapeText ([38, 60, 34, 39, 10, 228].flatMap encode) = b!"&amp;&lt;&#34;&#39;&#xA;" ++ [195, 164] := by
  refine ⟨by unfold XmlChar; decide, ?_⟩
  simp [encode, escapeText, decodeRune, first, escapeRune, inCharacterRange, runeError]

theorem readText_append (n : Option Str) (s x t : Str) (h : readText n s = some x) : readText n (s ++ t) = (readText none t).map fun u => x ++ u := by
  induction s generalizing n x with
  | nil =>
    cases n with
    | none => simp [readText] at h; subst h; simp
    | some n => simp [readText] at h
  | cons c s ih =>
    rw [List.cons_append]
    cases n with
    | none =>
      rw [readText] at h ⊢
      split at h
      · rename_i hc; rw [if_pos hc]; exact ih _ _ h
      · rename_i hc
        rw [if_neg hc]
        split at h
        · simp at h
        · rename_i hc
          rw [if_neg hc]
          obtain ⟨y, hy, rfl⟩ := Option.map_eq_some_iff.1 h
          rw [ih _ _ hy]
          simp [Function.comp_def]
    | some n =>
      rw [readText] at h ⊢
      split at h
      · rename_i hc
        rw [if_pos hc]
        cases hr : reference n with
        | none => simp [hr] at h
        | some y =>
          cases hs : readText none s with
          | none => simp [hr, hs] at h
          | some z =>
            have h : y ++ z = x := by simpa [hr, hs] using h
            rw [ih _ _ hs, ← h]
            cases readText none t <;> simp
      · rename_i hc; rw [if_neg hc]; exact ih _ _ h

/-- **C78**, the text beside a bar: it reads as the name, the arguments in parentheses and the time taken in parentheses, if name and arguments are made of characters that XML allows;
and it is a piece of character data whatever they are. -/
theorem C78_text (b : Bar) (hd : ∀ c ∈ b.duration, c ≠ 38 ∧ c ≠ 60 ∧ c ≠ 62 ∧ c ≠ 34 ∧ c ≠ 39) :
    (∃ x, readText none (text b) = some x) ∧
    ∀ ns as : List Nat, b.name = ns.flatMap encode → b.args = as.flatMap encode → (∀ r ∈ ns, XmlChar r) → (∀ r ∈ as, XmlChar r) →
      readText none (text b) = some (b.name ++ b!"(" ++ b.args ++ b!") (" ++ b.duration ++ b!")") := by
  have pl : ∀ s : Str, (∀ c ∈ s, c ≠ 38 ∧ c ≠ 60 ∧ c ≠ 62 ∧ c ≠ 34 ∧ c ≠ 39) → readText none s = some s := by
    intro s h
    have := read_plain s [] h
    rw [List.append_nil] at this
    rw [this]
    simp [readText]
  have main : ∀ n a : Str, readText none (escapeText b.name) = some n → readText none (escapeText b.args) = some a →
      readText none (text b) = some (n ++ b!"(" ++ a ++ b!") (" ++ b.duration ++ b!")") := by
    intro n a hn ha
    unfold text
    simp only [List.append_assoc]
    rw [readText_append _ _ _ _ hn, readText_append _ _ _ _ (pl b!"(" (by decide)), readText_append _ _ _ _ ha, readText_append _ _ _ _ (pl b!") (" (by decide)),
      readText_append _ _ _ _ (pl _ hd), pl b!")" (by decide)]
    simp
  refine ⟨?_, fun ns as en ea hns has => ?_⟩
  · obtain ⟨n, hn⟩ := C78_no_markup b.name
    obtain ⟨a, ha⟩ := C78_no_markup b.args
    exact ⟨_, main n a hn ha⟩
  · refine main _ _ ?_ ?_
    · rw [en]; exact C78_lossless ns hns
    · rw [ea]; exact C78_lossless as has

/-- The hypotheses of `C78_text` are met by a method with a quoted argument; the markup is written as references. -/
example : let b : Bar := ⟨b!"5", b!"0", b!"(*T).F", b!"\"<a&b>\"", b!"1.5s", b!"0s"⟩
    (∀ c ∈ b.duration, c ≠ 38 ∧ c ≠ 60 ∧ c ≠ 62 ∧ c ≠ 34 ∧ c ≠ 39) ∧ text b = b!"(*T).F(&#34;&lt;a&amp;b&gt;&#34;) (1.5s)" ∧
    readText none (text b) = some b!"(*T).F(\"<a&b>\") (1.5s)" := by
  refine ⟨by decide, by decide +kernel, by decide +kernel⟩

/-! ## The script -/

theorem readAttr_of_readText (n : Option Str) (s x : Str) (h : readText n s = some x) : readAttr n s = some x := by
  induction s generalizing n x with
  | nil => cases n <;> simpa [readText, readAttr] using h
  | cons c s ih =>
    cases n with
    | none =>
      rw [readText] at h
      rw [readAttr]
      split at h
      · rename_i hc; rw [if_pos hc]; exact ih _ _ h
      · rename_i hc
        rw [if_neg hc]
        split at h
        · simp at h
        · rename_i hc
          rw [if_neg (fun h => hc (by rcases h with h | h <;> simp [h]))]
          obtain ⟨y, hy, rfl⟩ := Option.map_eq_some_iff.1 h
          rw [ih _ _ hy]
          rfl
    | some n =>
      rw [readText] at h
      rw [readAttr]
      split at h
      · rename_i hc
        rw [if_pos hc]
        cases hr : reference n with
        | none => simp [hr] at h
        | some y =>
          cases hs : readText none s with
          | none => simp [hr, hs] at h
          | some z =>
            rw [ih _ _ hs]
            simpa [hr, hs] using h
      · rename_i hc; rw [if_neg hc]; exact ih _ _ h

theorem readAttr_append (n : Option Str) (s x t : Str) (h : readAttr n s = some x) : readAttr n (s ++ t) = (readAttr none t).map fun u => x ++ u := by
  induction s generalizing n x with
  | nil =>
    cases n with
    | none => simp [readAttr] at h; subst h; simp
    | some n => simp [readAttr] at h
  | cons c s ih =>
    rw [List.cons_append]
    cases n with
    | none =>
      rw [readAttr] at h ⊢
      split at h
      · rename_i hc; rw [if_pos hc]; exact ih _ _ h
      · rename_i hc
        rw [if_neg hc]
        split at h
        · simp at h
        · rename_i hc
          rw [if_neg hc]
          obtain ⟨y, hy, rfl⟩ := Option.map_eq_some_iff.1 h
          rw [ih _ _ hy]
          simp [Function.comp_def]
    | some n =>
      rw [readAttr] at h ⊢
      split at h
      · rename_i hc
        rw [if_pos hc]
        cases hr : reference n with
        | none => simp [hr] at h
        | some y =>
          cases hs : readAttr none s with
          | none => simp [hr, hs] at h
          | some z =>
            have h : y ++ z = x := by simpa [hr, hs] using h
            rw [ih _ _ hs, ← h]
            cases readAttr none t <;> simp
      · rename_i hc; rw [if_neg hc]; exact ih _ _ h

theorem readAttr_plain (x : Str) (h : ∀ c ∈ x, c ≠ 38 ∧ c ≠ 60 ∧ c ≠ 34) : readAttr none x = some x := by
  induction x with
  | nil => rfl
  | cons c x ih =>
    have hc := h c (by simp)
    rw [readAttr, if_neg hc.1, if_neg (by simp [hc]), ih fun c hc => h c (by simp [hc])]
    rfl

theorem outside_literal (x t : Str) (h : ∀ c ∈ x, c ≠ 39 ∧ c ≠ 10 ∧ c ≠ 13 ∧ c ≠ 92) : outside true (x ++ t) = outside true t := by
  induction x with
  | nil => rfl
  | cons c x ih =>
    have hc := h c (by simp)
    rw [List.cons_append, outside.eq_def]
    simp only [if_neg hc.1, if_neg (show ¬ (c = 10 ∨ c = 13) by simp [hc]), if_neg hc.2.2.2]
    exact ih fun c hc => h c (by simp [hc])

/-- A text that does not mean anything in an attribute or a script literal. -/
def Harmless (s : Str) : Prop := ∀ c ∈ s, c ≠ 38 ∧ c ≠ 60 ∧ c ≠ 34 ∧ c ≠ 39 ∧ c ≠ 10 ∧ c ≠ 13 ∧ c ≠ 92

/-- A text of XML characters without apostrophes, backslashes and line breaks. -/
def NoScript (s : Str) : Prop := ∃ rs : List Nat, s = rs.flatMap encode ∧ (∀ r ∈ rs, XmlChar r) ∧ ∀ c ∈ s, c ≠ 39 ∧ c ≠ 10 ∧ c ≠ 13 ∧ c ≠ 92

/-- **C78**, script, partial: if the name and the arguments have no apostrophe, backslash or line break, the handler is a call of `mouseover` with
three string literals, the last of which shows the name and the arguments.  What is missing: other names and arguments. -/
theorem C78_script_partial (b : Bar) (h1 : Harmless b.id) (h2 : Harmless b.parent) (h3 : Harmless b.duration) (h4 : Harmless b.started)
    (hn : NoScript b.name) (ha : NoScript b.args) :
    ∃ js, readAttr none (onmouseover b) = some js ∧ outside false js = some b!"mouseover(, , );" ∧
      js = b!"mouseover('" ++ b.id ++ b!"', '" ++ b.parent ++ b!"', '" ++ b.name ++ b!"(" ++ b.args ++ b!") Duration:" ++ b.duration ++
        b!" Started:" ++ b.started ++ b!"');" := by
  obtain ⟨ns, en, hns, hn⟩ := hn
  obtain ⟨as, ea, has, ha⟩ := ha
  have rn : readAttr none (escapeText b.name) = some b.name := by
    rw [en]; exact readAttr_of_readText _ _ _ (C78_lossless ns hns)
  have ra : readAttr none (escapeText b.args) = some b.args := by
    rw [ea]; exact readAttr_of_readText _ _ _ (C78_lossless as has)
  have pl : ∀ s, Harmless s → readAttr none s = some s := fun s h => readAttr_plain s fun c hc => ⟨(h c hc).1, (h c hc).2.1, (h c hc).2.2.1⟩
  have ol : ∀ s, Harmless s → ∀ t, outside true (s ++ t) = outside true t := fun s h t =>
    outside_literal s t fun c hc => ⟨(h c hc).2.2.2.1, (h c hc).2.2.2.2.1, (h c hc).2.2.2.2.2.1, (h c hc).2.2.2.2.2.2⟩
  refine ⟨_, ?_, ?_, rfl⟩
  · unfold onmouseover
    simp only [List.append_assoc]
    rw [readAttr_append _ _ _ _ (readAttr_plain b!"mouseover('" (by decide)), readAttr_append _ _ _ _ (pl _ h1),
      readAttr_append _ _ _ _ (readAttr_plain b!"', '" (by decide)), readAttr_append _ _ _ _ (pl _ h2),
      readAttr_append _ _ _ _ (readAttr_plain b!"', '" (by decide)), readAttr_append _ _ _ _ rn,
      readAttr_append _ _ _ _ (readAttr_plain b!"(" (by decide)), readAttr_append _ _ _ _ ra,
      readAttr_append _ _ _ _ (readAttr_plain b!") Duration:" (by decide)), readAttr_append _ _ _ _ (pl _ h3),
      readAttr_append _ _ _ _ (readAttr_plain b!" Started:" (by decide)), readAttr_append _ _ _ _ (pl _ h4),
      readAttr_plain b!"');" (by decide)]
    simp
  · simp only [List.append_assoc]
    have e0 : ∀ t, outside false (b!"mouseover('" ++ t) = (outside true t).map fun u => b!"mouseover(" ++ u := by
      intro t; simp [outside, Function.comp_def]
    have e1 : ∀ t, outside true (b!"', '" ++ t) = (outside true t).map fun u => b!", " ++ u := by
      intro t; simp [outside, Function.comp_def]
    have e2 : outside true b!"');" = some b!");" := by decide
    rw [e0, ol _ h1, e1, ol _ h2, e1, outside_literal _ _ hn, outside_literal _ _ (by decide), outside_literal _ _ ha, outside_literal _ _ (by decide),
      ol _ h3, outside_literal _ _ (by decide), ol _ h4, e2]
    rfl

/-- A bar of a span whose function is called `name`. -/
def exampleBar (name : Str) : Bar := ⟨b!"5", b!"0", name, b!"", b!"1s", b!"0s"⟩

/-- **C78**, script, violated: an apostrophe is escaped for XML, but the XML reader turns it into an apostrophe again before the script engine
sees it; a function of this name runs its own script when the mouse touches its bar. -/
theorem C78_script_violated : ∃ name js code, readAttr none (onmouseover (exampleBar name)) = some js ∧ outside false js = some code ∧
    code ≠ b!"mouseover(, , );" ∧ (b!"mouseover(, , );alert(1);").isPrefixOf code = true := by
  refine ⟨b!"f');alert(1);//'", b!"mouseover('5', '0', 'f');alert(1);//'() Duration:1s Started:0s');", b!"mouseover(, , );alert(1);//);", ?_, ?_, ?_, ?_⟩
  · have e : escapeText b!"f');alert(1);//'" = b!"f&#39;);alert(1);//&#39;" := by
      simp [escapeText, decodeRune, first, escapeRune, inCharacterRange, runeError]
    have e' : escapeText [] = [] := by simp [escapeText]
    unfold onmouseover exampleBar
    simp only [e, e']
    decide +kernel
  all_goals decide +kernel

/-- Names and arguments the partial theorem is about. -/
example : NoScript b!"main.f" ∧ NoScript b!"1 \"a\"" := by
  refine ⟨⟨[109, 97, 105, 110, 46, 102], ?_⟩, ⟨[49, 32, 34, 97, 34], ?_⟩⟩ <;> unfold XmlChar <;> decide +kernel

/-- **C78**: the declaration that makes the document XML has to be its very beginning; it is, if and only if no newline was written while waiting. -/
theorem C78_declaration (newlines : Nat) (rest : Str) :
    b!"<?xml" <+: traceQuerySVG newlines (b!"<?xml" ++ rest) ↔ newlines = 0 := by
  unfold traceQuerySVG
  constructor
  · intro h
    cases newlines with
    | zero => rfl
    | succ n =>
      rw [List.replicate_succ, List.cons_append] at h
      have := (List.cons_prefix_cons.1 h).1
      exact absurd this (by decide)
  · rintro rfl
    simp

end Monkit.SvgText
