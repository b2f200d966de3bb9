import Verif.Front.Warn
import Verif.Front.NamesProps

/-! # Lemmas about naming styles and warnings -/

namespace Verif.Front

namespace Heck

theorem splitWords_flatten (l : List Char) : ∀ (word : List Char) (mode : Mode), l ≠ [] → (splitWords word mode l).flatten = word ++ l := by
  induction l with
  | nil => intro _ _ h; exact absurd rfl h
  | cons c cs ih =>
    intro word mode _
    cases cs with
    | nil => simp [splitWords]
    | cons next rest =>
      rw [splitWords]
      split
      · rw [List.flatten_cons, ih _ _ (by simp)]; simp
      · split
        · rw [List.flatten_cons, ih _ _ (by simp)]; simp
        · rw [ih _ _ (by simp)]; simp

theorem splitWords_ne (l : List Char) : ∀ (word : List Char) (mode : Mode), (mode = .upper → word ≠ []) → ∀ w ∈ splitWords word mode l, w ≠ [] := by
  induction l with
  | nil => intro _ _ _ w h; simp [splitWords] at h
  | cons c cs ih =>
    intro word mode hm w hw
    cases cs with
    | nil => simp [splitWords] at hw; subst hw; simp
    | cons next rest =>
      rw [splitWords] at hw

      split at hw
      · rcases List.mem_cons.1 hw with rfl | hw
        · simp
        · exact ih _ _ (by simp) w hw
      · split at hw
        · rename_i h
          rcases List.mem_cons.1 hw with rfl | hw
          · exact hm h.1
          · exact ih _ _ (by simp) w hw
        · exact ih _ _ (by simp) w hw

theorem runs_flatten (l : List Char) : (runs l).flatten = l.filter Char.isAlphanum := by
  induction l with
  | nil => rfl
  | cons c cs ih =>
    rw [runs]
    split
    · rename_i h
      rw [List.filter_cons_of_pos h, ← ih]
      cases runs cs with
      | nil => simp
      | cons r rs => simp
    · rename_i h
      rw [List.filter_cons_of_neg h, ← ih]; simp

theorem words_flatten (l : List Char) : (words l).flatten = l.filter Char.isAlphanum := by
  rw [words, ← runs_flatten]
  induction runs l with
  | nil => rfl
  | cons r rs ih =>
    rw [List.flatMap_cons, List.flatten_append, ih, List.flatten_cons]
    congr 1
    cases r with
    | nil => rfl
    | cons c cs => rw [splitWords_flatten _ _ _ (by simp)]; rfl

theorem words_ne {l w : List Char} (h : w ∈ words l) : w ≠ [] := by
  obtain ⟨r, _, hw⟩ := List.mem_flatMap.1 h
  exact splitWords_ne r [] .boundary (by simp) w hw

theorem words_alphanum {l w : List Char} (h : w ∈ words l) : ∀ c ∈ w, c.isAlphanum = true := by
  intro c hc
  have : c ∈ (words l).flatten := List.mem_flatten.2 ⟨w, h, hc⟩
  rw [words_flatten] at this
  exact (List.mem_filter.1 this).2

theorem underscored_eq (ws : List (List Char)) : underscored ws = (ws.intersperse ['_']).flatten := by
  induction ws with
  | nil => rfl
  | cons w ws ih =>
    cases ws with
    | nil => simp [underscored]
    | cons v vs => rw [underscored, ih]; simp; simp

theorem mem_underscored {ws : List (List Char)} {c : Char} (h : c ∈ underscored ws) : c = '_' ∨ ∃ w ∈ ws, c ∈ w := by
  induction ws with
  | nil => simp [underscored] at h
  | cons w ws ih =>
    cases ws with
    | nil => exact .inr ⟨w, by simp, by simpa [underscored] using h⟩
    | cons v vs =>
      rw [underscored] at h
      · rcases List.mem_append.1 h with h | h
        · exact .inr ⟨w, by simp, h⟩
        · rcases List.mem_cons.1 h with h | h
          · exact .inl h
          · rcases ih h with h | ⟨w', h1, h2⟩
            · exact .inl h
            · exact .inr ⟨w', by simp [h1], h2⟩
      · simp

theorem filter_underscored {ws : List (List Char)} (h : ∀ w ∈ ws, ∀ c ∈ w, c.isAlphanum = true) : (underscored ws).filter Char.isAlphanum = ws.flatten := by
  induction ws with
  | nil => rfl
  | cons w ws ih =>
    have hw : w.filter Char.isAlphanum = w := List.filter_eq_self.2 (h w (by simp))
    cases ws with
    | nil => simp [underscored, hw]
    | cons v vs =>
      rw [underscored]
      · rw [List.filter_append, hw, List.filter_cons_of_neg (by decide), ih fun w' hm => h w' (by simp [hm])]; rfl
      · simp

theorem runs_append_under {w : List Char} (hw : ∀ c ∈ w, c.isAlphanum = true) (rest : List Char) : runs (w ++ '_' :: rest) = w :: runs rest := by
  induction w with
  | nil => rw [List.nil_append, runs, if_neg (by decide)]
  | cons c cs ih =>
    rw [List.cons_append, runs, if_pos (hw c (by simp)), ih fun c' h => hw c' (by simp [h])]

theorem runs_word {w : List Char} (hw : ∀ c ∈ w, c.isAlphanum = true) : runs w = [w] := by
  induction w with
  | nil => rfl
  | cons c cs ih => rw [runs, if_pos (hw c (by simp)), ih fun c' h => hw c' (by simp [h])]

theorem runs_underscored {ws : List (List Char)} (hne : ws ≠ []) (h : ∀ w ∈ ws, ∀ c ∈ w, c.isAlphanum = true) : runs (underscored ws) = ws := by
  induction ws with
  | nil => exact absurd rfl hne
  | cons w ws ih =>
    cases ws with
    | nil => exact runs_word (h w (by simp))
    | cons v vs =>
      rw [underscored]
      · rw [runs_append_under (h w (by simp)), ih (by simp) fun w' hm => h w' (by simp [hm])]
      · simp

theorem splitWords_upper (l : List Char) : ∀ (word : List Char) (mode : Mode), mode ≠ .lower → l ≠ [] → (∀ c ∈ l, c.isLower = false) → splitWords word mode l = [word ++ l] := by
  induction l with
  | nil => intro _ _ _ h; exact absurd rfl h
  | cons c cs ih =>
    intro word mode hm _ hl
    cases cs with
    | nil => rfl
    | cons next rest =>
      rw [splitWords]
      have hc := hl c (by simp)
      have hn := hl next (by simp)
      have hmode : mode.next c ≠ .lower := by
        rw [Mode.next, hc]; simp only [Bool.false_eq_true, if_false]; split
        · simp
        · exact hm
      rw [if_neg (fun h => hmode h.1), if_neg (by simp [hn]), ih _ _ hmode (by simp) fun c' h => hl c' (by simp [h])]
      simp

theorem words_upper {ws : List (List Char)} (h : ∀ w ∈ ws, w ≠ [] ∧ ∀ c ∈ w, c.isUpper = true ∨ c.isDigit = true) : words (underscored ws) = ws := by
  have hal : ∀ w ∈ ws, ∀ c ∈ w, c.isAlphanum = true := by
    intro w hw c hc
    rcases (h w hw).2 c hc with h | h <;> simp [Char.isAlphanum, Char.isAlpha, h]
  cases ws with
  | nil => rfl
  | cons v vs =>
    rw [words, runs_underscored (by simp) hal]
    generalize v :: vs = ws at *
    have : ∀ w ∈ ws, splitWords [] .boundary w = [w] := by
      intro w hw
      rw [splitWords_upper w [] .boundary (by simp) (h w hw).1]; · rfl
      intro c hc
      have := (h w hw).2 c hc
      simp only [Char.isUpper, Char.isLower, Char.isDigit, ge_iff_le, Bool.and_eq_true, decide_eq_true_eq, Bool.and_eq_false_iff, decide_eq_false_iff_not,
        UInt32.le_iff_toNat_le] at *
      simp at *
      omega
    clear h hal
    induction ws with
    | nil => rfl
    | cons w ws ih => rw [List.flatMap_cons, this w (by simp), ih fun w' h => this w' (by simp [h])]; rfl

theorem small_or (c : Char) : (∃ n : Fin 128, c = Char.ofNat n.val) ∨ 128 ≤ c.val.toNat := by
  by_cases h : c.val.toNat < 128
  · exact .inl ⟨⟨c.val.toNat, h⟩, (Char.ofNat_toNat c).symm⟩
  · exact .inr (by omega)

theorem big {c : Char} (h : 128 ≤ c.val.toNat) : c.isUpper = false ∧ c.isLower = false ∧ c.isDigit = false ∧ c.toUpper = c ∧ c.toLower = c := by
  have h : 128 ≤ c.toNat := h
  refine ⟨?_, ?_, ?_, ?_, ?_⟩
  · simp [Char.isUpper, UInt32.le_iff_toNat_le]; omega
  · simp [Char.isLower, UInt32.le_iff_toNat_le]; omega
  · simp [Char.isDigit, UInt32.le_iff_toNat_le]; omega
  · unfold Char.toUpper
    rw [dif_neg]
    simp [UInt32.le_iff_toNat_le]; omega
  · unfold Char.toLower
    rw [dif_neg]
    simp [UInt32.le_iff_toNat_le]; omega

theorem toUpper_class {c : Char} (h : c.isAlphanum = true) : c.toUpper.isUpper = true ∨ c.toUpper.isDigit = true := by
  rcases small_or c with ⟨n, rfl⟩ | hb
  · revert n; decide +kernel
  · obtain ⟨h1, h2, h3, _, _⟩ := big hb
    simp [Char.isAlphanum, Char.isAlpha, h1, h2, h3] at h

theorem toLower_class {c : Char} (h : c.isAlphanum = true) : c.toLower.isLower = true ∨ c.toLower.isDigit = true := by
  rcases small_or c with ⟨n, rfl⟩ | hb
  · revert n; decide +kernel
  · obtain ⟨h1, h2, h3, _, _⟩ := big hb
    simp [Char.isAlphanum, Char.isAlpha, h1, h2, h3] at h

theorem toUpper_toLower (c : Char) : c.toUpper.toLower = c.toLower := by
  rcases small_or c with ⟨n, rfl⟩ | hb
  · revert n; decide +kernel
  · rw [(big hb).2.2.2.1]

theorem toLower_toLower (c : Char) : c.toLower.toLower = c.toLower := by
  rcases small_or c with ⟨n, rfl⟩ | hb
  · revert n; decide +kernel
  · rw [(big hb).2.2.2.2, (big hb).2.2.2.2]

theorem toUpper_id {c : Char} (h : c.isUpper = true ∨ c.isDigit = true) : c.toUpper = c := by
  rcases small_or c with ⟨n, rfl⟩ | hb
  · revert n; decide +kernel
  · exact (big hb).2.2.2.1

theorem alphanum_of {c : Char} (h : c.isUpper = true ∨ c.isLower = true ∨ c.isDigit = true) : c.isAlphanum = true := by
  rcases h with h | h | h <;> simp [Char.isAlphanum, Char.isAlpha, h]

theorem class_of {c : Char} (h : c.isAlphanum = true) : c.isUpper = true ∨ c.isLower = true ∨ c.isDigit = true := by
  simpa [Char.isAlphanum, Char.isAlpha, or_assoc] using h

/-! ### The conversions -/

theorem snake_snake (s : String) : SnakeName (snake s) := by
  intro c hc
  rw [snake, String.toList_ofList] at hc
  rcases mem_underscored hc with h | ⟨w, hw, hcw⟩
  · exact .inr (.inr h)
  · obtain ⟨v, hv, rfl⟩ := List.mem_map.1 hw
    obtain ⟨d, hd, rfl⟩ := List.mem_map.1 hcw
    rcases toLower_class (words_alphanum hv d hd) with h | h
    · exact .inl h
    · exact .inr (.inl h)

theorem upper_words (l : List Char) : ∀ w ∈ (words l).map (·.map Char.toUpper), w ≠ [] ∧ ∀ c ∈ w, c.isUpper = true ∨ c.isDigit = true := by
  intro w hw
  obtain ⟨v, hv, rfl⟩ := List.mem_map.1 hw
  refine ⟨by simpa using words_ne hv, fun c hc => ?_⟩
  obtain ⟨d, hd, rfl⟩ := List.mem_map.1 hc
  exact toUpper_class (words_alphanum hv d hd)

theorem shouty_shouty (s : String) : ShoutyName (shouty s) := by
  refine ⟨_, upper_words s.toList, ?_⟩
  rw [shouty, String.toList_ofList, underscored_eq]

theorem shouty_iff (s : String) : shouty s = s ↔ ShoutyName s := by
  constructor
  · intro h; rw [← h]; exact shouty_shouty s
  · rintro ⟨ws, h, hs⟩
    rw [← underscored_eq] at hs
    rw [shouty, hs, words_upper h]
    have : ws.map (·.map Char.toUpper) = ws := by
      conv => rhs; rw [← List.map_id ws]
      refine List.map_congr_left fun w hw => ?_
      conv => rhs; rw [id, ← List.map_id w]
      exact List.map_congr_left fun c hc => toUpper_id ((h w hw).2 c hc)
    rw [this, ← hs, String.ofList_toList]

theorem capitalize_alphanum {w : List Char} (h : ∀ c ∈ w, c.isAlphanum = true) : ∀ c ∈ capitalize w, c.isAlphanum = true := by
  cases w with
  | nil => exact h
  | cons d ds =>
    intro c hc
    rcases List.mem_cons.1 hc with rfl | hc
    · rcases toUpper_class (h d (by simp)) with h | h
      · exact alphanum_of (.inl h)
      · exact alphanum_of (.inr (.inr h))
    · obtain ⟨e, he, rfl⟩ := List.mem_map.1 hc
      exact alphanum_of (.inr (toLower_class (h e (by simp [he]))))

theorem camel_camel (s : String) : CamelName (upperCamel s) := by
  refine ⟨[], (upperCamel s).toList, [], by simp, .inl rfl, .inl rfl, ?_⟩
  intro c hc
  rw [upperCamel, String.toList_ofList] at hc
  obtain ⟨w, hw, hcw⟩ := List.mem_flatMap.1 hc
  exact capitalize_alphanum (words_alphanum hw) c hcw

theorem plain_words (l : List Char) (f : List Char → List Char) (hf : ∀ w, (f w).map Char.toLower = w.map Char.toLower) (hfa : ∀ w : List Char, (∀ c ∈ w, c.isAlphanum = true) → ∀ c ∈ f w, c.isAlphanum = true) :
    (((words l).map f).flatten).map Char.toLower = (l.filter Char.isAlphanum).map Char.toLower ∧ ∀ w ∈ (words l).map f, ∀ c ∈ w, c.isAlphanum = true := by
  constructor
  · rw [← words_flatten]
    induction words l with
    | nil => rfl
    | cons w ws ih => simp only [List.map_cons, List.flatten_cons, List.map_append, hf, ih]
  · intro w hw
    obtain ⟨v, hv, rfl⟩ := List.mem_map.1 hw
    exact hfa v (words_alphanum hv)

theorem map_alphanum {g : Char → Char} (hg : ∀ c, c.isAlphanum = true → (g c).isAlphanum = true) (w : List Char) (h : ∀ c ∈ w, c.isAlphanum = true) :
    ∀ c ∈ w.map g, c.isAlphanum = true := by
  intro c hc
  obtain ⟨d, hd, rfl⟩ := List.mem_map.1 hc
  exact hg d (h d hd)

theorem toLower_alphanum (c : Char) (h : c.isAlphanum = true) : c.toLower.isAlphanum = true := alphanum_of (.inr (toLower_class h))

theorem toUpper_alphanum (c : Char) (h : c.isAlphanum = true) : c.toUpper.isAlphanum = true :=
  alphanum_of ((toUpper_class h).elim .inl fun h => .inr (.inr h))

theorem snake_plain (s : String) : plainLetters (snake s) = plainLetters s := by
  obtain ⟨h1, h2⟩ := plain_words s.toList (·.map Char.toLower) (fun w => by rw [List.map_map]; exact List.map_congr_left fun c _ => toLower_toLower c) (map_alphanum toLower_alphanum)
  rw [plainLetters, snake, String.toList_ofList, filter_underscored h2, h1, plainLetters]

theorem shouty_plain (s : String) : plainLetters (shouty s) = plainLetters s := by
  obtain ⟨h1, h2⟩ := plain_words s.toList (·.map Char.toUpper) (fun w => by rw [List.map_map]; exact List.map_congr_left fun c _ => toUpper_toLower c) (map_alphanum toUpper_alphanum)
  rw [plainLetters, shouty, String.toList_ofList, filter_underscored h2, h1, plainLetters]

theorem camel_plain (s : String) : plainLetters (upperCamel s) = plainLetters s := by
  obtain ⟨h1, h2⟩ := plain_words s.toList capitalize (fun w => by
    cases w with
    | nil => rfl
    | cons c cs =>
      rw [capitalize, List.map_cons, List.map_cons, toUpper_toLower, List.map_map]
      congr 1; exact List.map_congr_left fun c _ => toLower_toLower c) (fun w => capitalize_alphanum)
  have : (upperCamel s).toList.filter Char.isAlphanum = ((words s.toList).map capitalize).flatten := by
    rw [upperCamel, String.toList_ofList, List.flatMap_def]
    refine List.filter_eq_self.2 fun c hc => ?_
    obtain ⟨w, hw, hcw⟩ := List.mem_flatten.1 hc
    exact h2 w hw c hcw
  rw [plainLetters, this, h1, plainLetters]

theorem letters_plain {s : String} (h : IsIdentifier s) : letters s = (plainLetters s).length := by
  rw [letters, plainLetters, List.length_map]
  congr 1
  refine List.filter_congr fun c hc => ?_
  rcases h c hc with h | h
  · rw [h, decide_eq_true_eq]; rintro rfl; exact absurd h (by decide)
  · subst h; decide

theorem snake_keeps : KeepsLetters snake := by
  intro s hs
  rw [letters_plain hs, letters_plain, snake_plain]
  intro c hc
  rcases snake_snake s c hc with h | h | h
  · exact .inl (alphanum_of (.inr (.inl h)))
  · exact .inl (alphanum_of (.inr (.inr h)))
  · exact .inr h

end Heck

/-! ### Names -/

theorem isPermissiveSnakeCase_iff (s : String) : isPermissiveSnakeCase s = true ↔ SnakeName s := by
  simp [isPermissiveSnakeCase, SnakeName, or_assoc]

theorem camelTail_iff (l : List Char) : camelTail l = true ↔ ∃ middle last, l = middle ++ last ∧ (last = [] ∨ last = ['_']) ∧ ∀ c ∈ middle, c.isAlphanum = true := by
  induction l with
  | nil => exact ⟨fun _ => ⟨[], [], rfl, .inl rfl, by simp⟩, fun _ => rfl⟩
  | cons c cs ih =>
    cases cs with
    | nil =>
      simp only [camelTail, Bool.or_eq_true, beq_iff_eq]
      constructor
      · rintro (h | h)
        · exact ⟨[c], [], rfl, .inl rfl, by simpa using h⟩
        · exact ⟨[], ['_'], by simp [h], .inr rfl, by simp⟩
      · rintro ⟨middle, last, h1, rfl | rfl, h3⟩
        · left; rw [List.append_nil] at h1; exact h3 c (by simp [← h1])
        · right
          cases middle with
          | nil => simpa using h1
          | cons _ _ => simp at h1
    | cons d ds =>
      rw [camelTail, Bool.and_eq_true, ih]
      · constructor
        · rintro ⟨h, middle, last, h1, h2, h3⟩
          refine ⟨c :: middle, last, by simp [h1], h2, fun c' hc => ?_⟩
          rcases List.mem_cons.1 hc with rfl | hc
          · exact h
          · exact h3 c' hc
        · rintro ⟨middle, last, h1, h2, h3⟩
          cases middle with
          | nil => rcases h2 with rfl | rfl <;> simp at h1
          | cons m ms =>
            simp only [List.cons_append, List.cons.injEq] at h1
            refine ⟨h1.1 ▸ h3 m (by simp), ms, last, h1.2, h2, fun c' hc => h3 c' (by simp [hc])⟩
      · simp

theorem isPermissiveUpperCamelCase_iff (s : String) : isPermissiveUpperCamelCase s = true ↔ CamelName s := by
  unfold isPermissiveUpperCamelCase CamelName
  generalize s.toList = l
  split
  · rename_i cs
    rw [camelTail_iff]
    constructor
    · rintro ⟨middle, last, rfl, h2, h3⟩
      exact ⟨['_'], middle, last, rfl, .inr rfl, h2, h3⟩
    · rintro ⟨first, middle, last, h1, rfl | rfl, h2, h3⟩
      · cases middle with
        | nil =>
          rcases h2 with rfl | rfl
          · simp at h1
          · simp only [List.nil_append, List.cons.injEq, true_and] at h1
            exact ⟨[], [], by simp [h1], .inl rfl, by simp⟩
        | cons m ms =>
          simp only [List.nil_append, List.cons_append, List.cons.injEq] at h1
          have := h3 m (by simp)
          rw [← h1.1] at this
          exact absurd this (by decide)
      · simp only [List.cons_append, List.nil_append, List.cons.injEq, true_and] at h1
        exact ⟨middle, last, h1, h2, h3⟩
  · rename_i hne
    rw [camelTail_iff]
    constructor
    · rintro ⟨middle, last, rfl, h2, h3⟩
      exact ⟨[], middle, last, rfl, .inl rfl, h2, h3⟩
    · rintro ⟨first, middle, last, h1, rfl | rfl, h2, h3⟩
      · exact ⟨middle, last, by simpa using h1, h2, h3⟩
      · exact absurd h1 (hne _)

/-! ### The set of warnings -/

/-- Inserts these warnings one after another. -/
def Warnings.addAll (ws : Warnings) (new : List Warning) : Warnings := new.foldl Warnings.insert ws

theorem Warning.same_refl (w : Warning) : w.same w = true := by
  cases w <;> simp [Warning.same, TypeKey.eq_iff]

theorem Warning.same_symm {v w : Warning} (h : v.same w = true) : w.same v = true := by
  cases v <;> cases w <;> simp_all [Warning.same, TypeKey.eq_iff]

theorem Warning.same_trans {u v w : Warning} (h : u.same v = true) (h' : v.same w = true) : u.same w = true := by
  cases u <;> cases v <;> cases w <;> simp_all [Warning.same, TypeKey.eq_iff]

theorem Warnings.addAll_append (ws : Warnings) (a b : List Warning) : ws.addAll (a ++ b) = (ws.addAll a).addAll b := List.foldl_append

theorem Warnings.mem_addAll {ws : Warnings} {new : List Warning} {w : Warning} (h : w ∈ ws.addAll new) : w ∈ ws ∨ w ∈ new := by
  induction new generalizing ws with
  | nil => exact .inl h
  | cons v vs ih =>
    rcases ih h with h | h
    · unfold Warnings.insert at h
      split at h
      · exact .inl h
      · rcases List.mem_append.1 h with h | h
        · exact .inl h
        · exact .inr (by simp_all)
    · exact .inr (by simp [h])

theorem Warnings.addAll_covers {ws : Warnings} {new : List Warning} {w : Warning} (h : w ∈ ws ∨ w ∈ new) : ∃ v ∈ ws.addAll new, w.same v = true := by
  have hold : ∀ {new : List Warning} {ws : Warnings} {w : Warning}, w ∈ ws → w ∈ ws.addAll new := by
    intro new
    induction new with
    | nil => intro ws w h; exact h
    | cons v vs ih =>
      intro ws w h
      refine ih ?_
      unfold Warnings.insert
      split
      · exact h
      · exact List.mem_append_left _ h
  induction new generalizing ws with
  | nil => exact ⟨w, h.resolve_right (by simp), w.same_refl⟩
  | cons v vs ih =>
    rcases h with h | h
    · exact ⟨w, hold h, w.same_refl⟩
    · rcases List.mem_cons.1 h with rfl | h
      · change ∃ v ∈ (ws.insert w).addAll vs, _
        by_cases ha : ws.any w.same = true
        · obtain ⟨v, hv, hs⟩ := List.any_eq_true.1 ha
          refine ⟨v, hold ?_, hs⟩
          rw [Warnings.insert, if_pos ha]; exact hv
        · refine ⟨w, hold ?_, w.same_refl⟩
          rw [Warnings.insert, if_neg ha]; simp
      · exact ih (.inr h)

theorem Warnings.addAll_nodup {ws : Warnings} (h : ws.Nodup) (new : List Warning) : (ws.addAll new).Nodup := by
  induction new generalizing ws with
  | nil => exact h
  | cons v vs ih =>
    refine ih ?_
    unfold Warnings.insert
    split
    · exact h
    · rename_i ha
      rw [List.nodup_append]
      refine ⟨h, by simp, ?_⟩
      rintro a ha' b hb rfl
      rw [List.mem_singleton] at hb
      subst hb
      exact ha (List.any_eq_true.2 ⟨_, ha', Warning.same_refl _⟩)

/-! ### The warnings of a file -/

/-- What `checkPreCompile` inserts. -/
def preWarnings (key : TypeKey) : List Warning :=
  ((key.path.filter fun part => !isPermissiveSnakeCase part).map fun part => .packageCase part (Heck.snake part)) ++
    if isPermissiveUpperCamelCase key.name then [] else [.typeNameCase key (Heck.upperCamel key.name)]

/-- What `checkFieldName` inserts. -/
def fieldWarnings (key : TypeKey) (names : List String) : List Warning :=
  (names.filter fun name => !isPermissiveSnakeCase name).map fun name => .fieldCase key name (Heck.snake name)

/-- Names of fields and variants. -/
def CMessage.warnedNames : CMessage → List String
  | .struct _ _ fields _ _ => fields.filterMap CField.name
  | .union _ _ _ variants _ _ => variants.map CVariant.name

/-- What `checkMessage` inserts. -/
def messageWarnings (key : TypeKey) (m : CMessage) : List Warning :=
  fieldWarnings key m.warnedNames ++
    ((m.constants.map (·.1)).filter fun name => name ≠ Heck.shouty name).map fun name => .constantCase key name (Heck.shouty name)

/-- What `checkPostCompile` inserts. -/
def postWarnings (key : TypeKey) (c : Compiled) : List Warning :=
  match c.kind with
  | .message m => messageWarnings key m
  | .service request response => messageWarnings key request ++ messageWarnings key response

theorem checkPackage_eq (parts : List String) (ws : Warnings) :
    ws.checkPackage parts = ws.addAll ((parts.filter fun part => !isPermissiveSnakeCase part).map fun part => .packageCase part (Heck.snake part)) := by
  induction parts generalizing ws with
  | nil => rfl
  | cons p ps ih =>
    rw [Warnings.checkPackage, ih]
    cases h : isPermissiveSnakeCase p <;> simp [h, Warnings.addAll]

theorem checkPreCompile_eq (ws : Warnings) (key : TypeKey) : ws.checkPreCompile key = ws.addAll (preWarnings key) := by
  unfold Warnings.checkPreCompile preWarnings
  rw [Warnings.addAll_append, checkPackage_eq]
  cases h : isPermissiveUpperCamelCase key.name <;> simp [Warnings.addAll]

theorem checkFieldName_eq (ws : Warnings) (key : TypeKey) (name : String) : ws.checkFieldName key name = ws.addAll (fieldWarnings key [name]) := by
  unfold Warnings.checkFieldName fieldWarnings
  cases h : isPermissiveSnakeCase name <;> simp [h, Warnings.addAll]

theorem fieldWarnings_cons (key : TypeKey) (name : String) (names : List String) : fieldWarnings key (name :: names) = fieldWarnings key [name] ++ fieldWarnings key names := by
  unfold fieldWarnings
  rw [← List.singleton_append, List.filter_append, List.map_append]

theorem checkFields_eq (key : TypeKey) (fields : List CField) (ws : Warnings) :
    ws.checkFields key fields = ws.addAll (fieldWarnings key (fields.filterMap CField.name)) := by
  induction fields generalizing ws with
  | nil => rfl
  | cons f fs ih =>
    rw [Warnings.checkFields]
    cases h : f.name with
    | none => simp only [ih, List.filterMap_cons, h]
    | some n => simp only [ih, List.filterMap_cons, h]; rw [fieldWarnings_cons, Warnings.addAll_append, checkFieldName_eq]

theorem checkVariants_eq (key : TypeKey) (variants : List CVariant) (ws : Warnings) :
    ws.checkVariants key variants = ws.addAll (fieldWarnings key (variants.map CVariant.name)) := by
  induction variants generalizing ws with
  | nil => rfl
  | cons v vs ih => rw [Warnings.checkVariants, ih, List.map_cons, fieldWarnings_cons, Warnings.addAll_append, checkFieldName_eq]

theorem checkConstants_eq (key : TypeKey) (cs : Constants) (ws : Warnings) : ws.checkConstants key cs =
    ws.addAll (((cs.map (·.1)).filter fun name => name ≠ Heck.shouty name).map fun name => .constantCase key name (Heck.shouty name)) := by
  induction cs generalizing ws with
  | nil => rfl
  | cons c cs ih =>
    obtain ⟨name, c⟩ := c
    rw [Warnings.checkConstants, ih]
    by_cases h : name = Heck.shouty name
    · rw [if_neg (by simpa using h)]
      simp [← h]
    · rw [if_pos h]
      simp [h, Warnings.addAll]

theorem checkMessage_eq (key : TypeKey) (m : CMessage) (ws : Warnings) : ws.checkMessage key m = ws.addAll (messageWarnings key m) := by
  cases m with
  | struct d e fields l cs => rw [Warnings.checkMessage, checkFields_eq, checkConstants_eq, ← Warnings.addAll_append]; rfl
  | union d e n variants l cs => rw [Warnings.checkMessage, checkVariants_eq, checkConstants_eq, ← Warnings.addAll_append]; rfl

theorem checkPostCompile_eq (ws : Warnings) (key : TypeKey) (c : Compiled) : ws.checkPostCompile key c = ws.addAll (postWarnings key c) := by
  unfold Warnings.checkPostCompile postWarnings
  cases c.kind with
  | message m => exact checkMessage_eq key m ws
  | service q r => simp only [checkMessage_eq, ← Warnings.addAll_append]

/-- All warnings for a type. -/
def typeWarnings (e : TypeKey × Compiled) : List Warning := preWarnings e.1 ++ postWarnings e.1 e.2

/-! ### Compiling with and without warnings -/

/-- What was compiled, and the warnings for it. -/
def Grew (p p' : Persistent) (ws ws' : Warnings) : Prop :=
  ∃ new l, p'.done = p.done ++ new ∧ ws' = ws.addAll l ∧ ∀ w, w ∈ l ↔ ∃ e ∈ new, w ∈ typeWarnings e

theorem Grew.refl (p p' : Persistent) (ws : Warnings) (h : p'.done = p.done) : Grew p p' ws ws := ⟨[], [], by simp [h], rfl, by simp⟩

theorem Grew.trans {p p' p'' : Persistent} {ws ws' ws'' : Warnings} (h : Grew p p' ws ws') (h' : Grew p' p'' ws' ws'') : Grew p p'' ws ws'' := by
  obtain ⟨n, l, h1, h2, h3⟩ := h
  obtain ⟨n', l', h1', h2', h3'⟩ := h'
  refine ⟨n ++ n', l ++ l', by rw [h1', h1, List.append_assoc], by rw [h2', h2, Warnings.addAll_append], fun w => ?_⟩
  rw [List.mem_append, h3, h3']
  simp only [List.mem_append, or_and_right, exists_or]

/-- With and without warnings the result is the same; the warnings that are added are those for the types that were compiled. -/
def WarnedAs {α : Type} (c : Outcome (α × Persistent)) (d : Outcome (α × Warned)) (p : Persistent) (ws : Warnings) : Prop :=
  match c with
  | .ok (a, p') => ∃ ws', d = .ok (a, ⟨p', ws'⟩) ∧ Grew p p' ws ws'
  | .error => d = .error
  | .panic => d = .panic

/-- `WarnedAs` for steps. -/
def warnRel : Rel Persistent Warned := Rel.of
  (fun c d => ∀ f p ws, match c ⟨f, p⟩ with
    | .ok (a, ⟨f', p'⟩) => ∃ ws', d ⟨f, ⟨p, ws⟩⟩ = .ok (a, ⟨f', ⟨p', ws'⟩⟩) ∧ Grew p p' ws ws'
    | .error => d ⟨f, ⟨p, ws⟩⟩ = .error
    | .panic => d ⟨f, ⟨p, ws⟩⟩ = .panic)
  (by
    intro _ o f p ws
    simp only [Step.ofFile]
    cases o f with
    | ok r => exact ⟨ws, rfl, .refl _ _ _ rfl⟩
    | error => rfl
    | panic => rfl)
  (by
    intro α β c d k l hc hk f p ws
    have h1 := hc f p ws
    simp only [Step.andThen]
    cases hr : c ⟨f, p⟩ with
    | error => rw [hr] at h1; dsimp only at h1; rw [h1]; rfl
    | panic => rw [hr] at h1; dsimp only at h1; rw [h1]; rfl
    | ok v =>
      obtain ⟨b, ⟨f1, p1⟩⟩ := v
      rw [hr] at h1
      obtain ⟨ws1, h2, h3⟩ := h1
      have h4 := hk b f1 p1 ws1
      rw [h2]
      simp only [Outcome.bind]
      cases hr' : k b ⟨f1, p1⟩ with
      | error => rw [hr'] at h4; exact h4
      | panic => rw [hr'] at h4; exact h4
      | ok v =>
        obtain ⟨b', ⟨f2, p2⟩⟩ := v
        rw [hr'] at h4
        obtain ⟨ws2, h5, h6⟩ := h4
        exact ⟨ws2, h5, h3.trans h6⟩)

theorem insertDone_done {p p' : Persistent} {key : TypeKey} {c : Compiled} (h : insertDone p key c = .ok p') : p'.done = p.done ++ [(key, c)] := by
  unfold insertDone at h
  split at h
  · cases h
  · cases h; rfl

/-- Compiling one file and storing it, with and without warnings. -/
theorem warned_one (x : Externals) {l₁ : Lookup Persistent} {l₂ : Lookup Warned} (h : ∀ key, warnRel.holds (Step.ofLookup l₁ key) (Step.ofLookup l₂ key))
    (key : TypeKey) (file : File) (p q : Persistent) (hq : q.done = p.done) (ws : Warnings) :
    WarnedAs ((compileFile x l₁ key file q).bind fun r => (insertDone r.2 key r.1).bind fun p => .ok (r.1, p))
      ((compileOneWarned x l₂ key file ⟨q, ws⟩).bind fun r => (insertDone r.2.base key r.1).bind fun b => .ok (r.1, { r.2 with base := b })) p ws := by
  unfold compileOneWarned
  rw [compileFile_eq, compileFile_eq]
  cases file.statements with
  | none => rfl
  | some ss =>
    dsimp only
    have h1 := warnRel.file h x ss file.port (.new key.path) q (ws.checkPreCompile key)
    cases hr : Front.fileStep x l₁ ss file.port ⟨.new key.path, q⟩ with
    | error => rw [hr] at h1; dsimp only at h1; rw [h1]; rfl
    | panic => rw [hr] at h1; dsimp only at h1; rw [h1]; rfl
    | ok v =>
      obtain ⟨c, ⟨f1, p1⟩⟩ := v
      rw [hr] at h1
      obtain ⟨ws1, h2, new, l, h3, h4, h5⟩ := h1
      rw [h2]
      simp only [Outcome.bind]
      cases hi : insertDone p1 key c with
      | error => rfl
      | panic => rfl
      | ok p2 =>
        refine ⟨_, rfl, new ++ [(key, c)], preWarnings key ++ l ++ postWarnings key c, ?_, ?_, fun w => ?_⟩
        · rw [insertDone_done hi, h3, hq, List.append_assoc]
        · rw [Warnings.addAll_append, Warnings.addAll_append, ← checkPreCompile_eq, ← h4, checkPostCompile_eq]
        · simp only [List.mem_append, h5, or_and_right, exists_or, List.mem_singleton, exists_eq_left, typeWarnings]
          generalize (∃ e ∈ new, w ∈ preWarnings e.1 ∨ w ∈ postWarnings e.1 e.2) = P
          tauto

theorem warned_lookup (x : Externals) : ∀ (n : Nat) (key : TypeKey), warnRel.holds (Step.ofLookup (Persistent.typeByKey x n) key) (Step.ofLookup (Warned.typeByKey x n) key) := by
  intro n
  induction n with
  | zero =>
    intro key f p ws
    simp only [Step.ofLookup]
    rw [Persistent.typeByKey, Warned.typeByKey]
    cases getCaseSensitive p.done key with
    | some c => exact ⟨ws, rfl, .refl _ _ _ rfl⟩
    | none => rfl
  | succ n ih =>
    intro key f p ws
    simp only [Step.ofLookup]
    rw [Persistent.typeByKey, Warned.typeByKey]
    dsimp only
    cases getCaseSensitive p.done key with
    | some c => exact ⟨ws, rfl, .refl _ _ _ rfl⟩
    | none =>
      dsimp only
      cases removeKey p.pending key with
      | none => rfl
      | some v =>
        obtain ⟨file, pending⟩ := v
        dsimp only
        have h1 := warned_one x ih key file p { p with pending := pending } rfl ws
        revert h1
        generalize ((compileFile x (Persistent.typeByKey x n) key file { p with pending := pending }).bind fun r =>
          (insertDone r.2 key r.1).bind fun p => .ok (r.1, p)) = c
        generalize ((compileOneWarned x (Warned.typeByKey x n) key file ⟨{ p with pending := pending }, ws⟩).bind fun r =>
          (insertDone r.2.base key r.1).bind fun b => .ok (r.1, { r.2 with base := b })) = d
        intro h1
        cases c with
        | error => rw [h1]; rfl
        | panic => rw [h1]; rfl
        | ok v =>
          obtain ⟨ws', h2, h3⟩ := h1
          rw [h2]
          exact ⟨ws', rfl, h3⟩

theorem warned_all (x : Externals) : ∀ (n : Nat) (p : Persistent) (ws : Warnings), match Persistent.compileAll x n p with
    | .ok p' => ∃ ws', Warned.compileAll x n ⟨p, ws⟩ = .ok ⟨p', ws'⟩ ∧ Grew p p' ws ws'
    | .error => Warned.compileAll x n ⟨p, ws⟩ = .error
    | .panic => Warned.compileAll x n ⟨p, ws⟩ = .panic := by
  intro n
  induction n with
  | zero =>
    intro p ws
    rw [Persistent.compileAll, Warned.compileAll]
    cases h : p.pending with
    | nil => exact ⟨ws, rfl, .refl _ _ _ rfl⟩
    | cons e es => rfl
  | succ n ih =>
    intro p ws
    rw [Persistent.compileAll, Warned.compileAll]
    dsimp only
    cases h : p.pending with
    | nil => exact ⟨ws, rfl, .refl _ _ _ rfl⟩
    | cons e pending =>
      obtain ⟨key, file⟩ := e
      dsimp only
      have h1 := warned_one x (warned_lookup x pending.length) key file p { p with pending := pending } rfl ws
      have e1 : ((compileFile x (Persistent.typeByKey x pending.length) key file { p with pending := pending }).bind fun r =>
          (insertDone r.2 key r.1).bind fun p => p.compileAll x n) =
          (((compileFile x (Persistent.typeByKey x pending.length) key file { p with pending := pending }).bind fun r =>
            (insertDone r.2 key r.1).bind fun p => .ok (r.1, p)).bind fun r => r.2.compileAll x n) := by
        simp only [Outcome.bind_assoc]; rfl
      have e2 : ((compileOneWarned x (Warned.typeByKey x pending.length) key file ⟨{ p with pending := pending }, ws⟩).bind fun r =>
          (insertDone r.2.base key r.1).bind fun b => Warned.compileAll x n { r.2 with base := b }) =
          (((compileOneWarned x (Warned.typeByKey x pending.length) key file ⟨{ p with pending := pending }, ws⟩).bind fun r =>
            (insertDone r.2.base key r.1).bind fun b => .ok (r.1, { r.2 with base := b })).bind fun r => Warned.compileAll x n r.2) := by
        simp only [Outcome.bind_assoc]; rfl
      rw [e1, e2]
      revert h1
      generalize ((compileFile x (Persistent.typeByKey x pending.length) key file { p with pending := pending }).bind fun r =>
        (insertDone r.2 key r.1).bind fun p => .ok (r.1, p)) = c
      generalize ((compileOneWarned x (Warned.typeByKey x pending.length) key file ⟨{ p with pending := pending }, ws⟩).bind fun r =>
        (insertDone r.2.base key r.1).bind fun b => .ok (r.1, { r.2 with base := b })) = d
      intro h1
      cases c with
      | error => rw [h1]; rfl
      | panic => rw [h1]; rfl
      | ok v =>
        obtain ⟨a, p'⟩ := v
        obtain ⟨ws', h2, h3⟩ := h1
        rw [h2]
        simp only [Outcome.bind]
        have h4 := ih p' ws'
        cases hr : Persistent.compileAll x n p' with
        | error => rw [hr] at h4; exact h4
        | panic => rw [hr] at h4; exact h4
        | ok p2 =>
          rw [hr] at h4
          obtain ⟨ws2, h5, h6⟩ := h4
          exact ⟨ws2, h5, h3.trans h6⟩

theorem compileWithWarnings_cases (x : Externals) (files : List (TypeKey × File)) : match compile x files with
    | .ok types => ∃ l : List Warning, compileWithWarnings x files = .ok (types, Warnings.addAll [] l) ∧ ∀ w, w ∈ l ↔ ∃ e ∈ types, w ∈ typeWarnings e
    | .error => compileWithWarnings x files = .error
    | .panic => compileWithWarnings x files = .panic := by
  unfold compile compileWithWarnings
  have h := warned_all x files.length ⟨files, []⟩ []
  cases hr : Persistent.compileAll x files.length ⟨files, []⟩ with
  | error => rw [hr] at h; dsimp only at h; rw [h]; rfl
  | panic => rw [hr] at h; dsimp only at h; rw [h]; rfl
  | ok p =>
    rw [hr] at h
    obtain ⟨ws, h1, new, l, h2, h3, h4⟩ := h
    rw [h1]
    refine ⟨l, ?_, ?_⟩
    · simp only [Outcome.bind]; rw [h3]
    · intro w; rw [h4, h2]; rfl

/-! ### The warnings that are due -/

theorem mem_warnedNames {m : CMessage} {name : String} : name ∈ m.warnedNames ↔
    ((∃ d e fields l cs, m = .struct d e fields l cs ∧ ∃ s a al, CField.data name s a al ∈ fields) ∨
      ∃ d e n variants l cs, m = .union d e n variants l cs ∧ ∃ s a, CVariant.mk name s a ∈ variants) := by
  cases m with
  | struct d e fields l cs =>
    simp only [CMessage.warnedNames, List.mem_filterMap]
    constructor
    · rintro ⟨f, hf, hn⟩
      cases f with
      | padding b a => cases hn
      | data n s a al => cases hn; exact .inl ⟨d, e, fields, l, cs, rfl, s, a, al, hf⟩
    · rintro (⟨_, _, _, _, _, h, s, a, al, hf⟩ | ⟨_, _, _, _, _, _, h, _⟩)
      · cases h; exact ⟨_, hf, rfl⟩
      · cases h
  | union d e n variants l cs =>
    simp only [CMessage.warnedNames, List.mem_map]
    constructor
    · rintro ⟨⟨nm, s, a⟩, hv, hn⟩
      cases hn; exact .inr ⟨d, e, n, variants, l, cs, rfl, s, a, hv⟩
    · rintro (⟨_, _, _, _, _, h, _⟩ | ⟨_, _, _, _, _, _, h, s, a, hf⟩)
      · cases h
      · cases h; exact ⟨_, hf, rfl⟩

theorem mem_messageWarnings {key : TypeKey} {m : CMessage} {w : Warning} : w ∈ messageWarnings key m ↔
    (∃ name ∈ m.warnedNames, ¬SnakeName name ∧ w = .fieldCase key name (Heck.snake name)) ∨
      ∃ name, (∃ k, (name, k) ∈ m.constants) ∧ ¬ShoutyName name ∧ w = .constantCase key name (Heck.shouty name) := by
  simp only [messageWarnings, fieldWarnings, List.mem_append, List.mem_map, List.mem_filter, Bool.not_eq_true', ← Bool.not_eq_true, isPermissiveSnakeCase_iff, decide_eq_true_eq,
    ← Heck.shouty_iff]
  constructor
  · rintro (⟨n, ⟨h1, h2⟩, rfl⟩ | ⟨n, ⟨⟨⟨n', k⟩, h1, rfl⟩, h2⟩, rfl⟩)
    · exact .inl ⟨n, h1, h2, rfl⟩
    · exact .inr ⟨_, ⟨k, h1⟩, fun h => h2 h.symm, rfl⟩
  · rintro (⟨n, h1, h2, rfl⟩ | ⟨n, ⟨k, h1⟩, h2, rfl⟩)
    · exact .inl ⟨n, ⟨h1, h2⟩, rfl⟩
    · exact .inr ⟨n, ⟨⟨_, h1, rfl⟩, fun h => h2 h.symm⟩, rfl⟩

theorem mem_postWarnings {key : TypeKey} {c : Compiled} {w : Warning} : w ∈ postWarnings key c ↔
    ∃ m, (c.kind = .message m ∨ (∃ r, c.kind = .service m r) ∨ ∃ r, c.kind = .service r m) ∧ w ∈ messageWarnings key m := by
  unfold postWarnings
  cases c.kind with
  | message m => simp
  | service q r =>
    simp only [List.mem_append, reduceCtorEq, DsdlKind.service.injEq, false_or, exists_and_left, exists_and_right]
    constructor
    · rintro (h | h)
      · exact ⟨q, .inl ⟨rfl, r, rfl⟩, h⟩
      · exact ⟨r, .inr ⟨⟨q, rfl⟩, rfl⟩, h⟩
    · rintro ⟨m, ⟨h, _⟩ | ⟨_, h⟩, hw⟩
      · exact .inl (h ▸ hw)
      · exact .inr (h ▸ hw)

theorem mem_preWarnings {key : TypeKey} {w : Warning} : w ∈ preWarnings key ↔
    (∃ part ∈ key.path, ¬SnakeName part ∧ w = .packageCase part (Heck.snake part)) ∨ ¬CamelName key.name ∧ w = .typeNameCase key (Heck.upperCamel key.name) := by
  simp only [preWarnings, List.mem_append, List.mem_map, List.mem_filter, Bool.not_eq_true', ← Bool.not_eq_true, isPermissiveSnakeCase_iff, ← isPermissiveUpperCamelCase_iff]
  constructor
  · rintro (⟨n, ⟨h1, h2⟩, rfl⟩ | h)
    · exact .inl ⟨n, h1, h2, rfl⟩
    · right
      split at h
      · cases h
      · exact ⟨by assumption, by simpa using h⟩
  · rintro (⟨n, h1, h2, rfl⟩ | ⟨h1, rfl⟩)
    · exact .inl ⟨n, ⟨h1, h2⟩, rfl⟩
    · right; rw [if_neg h1]; simp

theorem due_iff {types : List (TypeKey × Compiled)} {w : Warning} : (∃ e ∈ types, w ∈ typeWarnings e) ↔ Due types w := by
  constructor
  · rintro ⟨⟨key, c⟩, he, hw⟩
    rcases List.mem_append.1 hw with hw | hw
    · rcases mem_preWarnings.1 hw with ⟨part, h1, h2, rfl⟩ | ⟨h1, rfl⟩
      · exact .package he h1 h2
      · exact .typeName he h1
    · obtain ⟨m, hm, hw⟩ := mem_postWarnings.1 hw
      rcases mem_messageWarnings.1 hw with ⟨name, h1, h2, rfl⟩ | ⟨name, h1, h2, rfl⟩
      · exact .field he ⟨m, hm, mem_warnedNames.1 h1⟩ h2
      · exact .constant he ⟨m, hm, h1⟩ h2
  · intro h
    cases h with
    | package mem has unusual => exact ⟨_, mem, List.mem_append_left _ (mem_preWarnings.2 (.inl ⟨_, has, unusual, rfl⟩))⟩
    | typeName mem unusual => exact ⟨_, mem, List.mem_append_left _ (mem_preWarnings.2 (.inr ⟨unusual, rfl⟩))⟩
    | field mem has unusual =>
      obtain ⟨m, hm, h⟩ := has
      exact ⟨_, mem, List.mem_append_right _ (mem_postWarnings.2 ⟨m, hm, mem_messageWarnings.2 (.inl ⟨_, mem_warnedNames.2 h, unusual, rfl⟩)⟩)⟩
    | constant mem has unusual =>
      obtain ⟨m, hm, h⟩ := has
      exact ⟨_, mem, List.mem_append_right _ (mem_postWarnings.2 ⟨m, hm, mem_messageWarnings.2 (.inr ⟨_, h, unusual, rfl⟩)⟩)⟩

/-- Types with different names: of two warnings that are due, the set keeps both. -/
theorem due_same {types : List (TypeKey × Compiled)} (hd : ∀ a ∈ types, ∀ b ∈ types, a.1.folded = b.1.folded → a.1 = b.1) {v w : Warning} (hv : Due types v) (hw : Due types w)
    (h : v.same w = true) : v = w := by
  cases hv <;> cases hw <;> simp only [Warning.same, Bool.and_eq_true, beq_iff_eq, TypeKey.eq_iff, Bool.false_eq_true] at h
  · rw [h.1]
  · rename_i h1 _ _ _ h2 _; have := hd _ h1 _ h2 h.1; simp only at this; rw [this]
  · rename_i h1 _ _ _ _ _ h2 _ _; have := hd _ h1 _ h2 h.1.1; simp only at this; rw [this, h.1.2]
  · rename_i h1 _ _ _ _ _ h2 _ _; have := hd _ h1 _ h2 h.1.1; simp only at this; rw [this, h.1.2]

end Verif.Front
