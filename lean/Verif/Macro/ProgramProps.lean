import Verif.Macro.Program

/-! # Properties of the program `canadensis_generate_code` -/

namespace Verif.Macro

open Verif.Front (Outcome ModuleTree)

/-! ### C125 -/

/-- `package("...")` for each of the directories, and `generate()`. -/
def macroFor : List String → List Token
  | [] => [.ident "generate", .group .parenthesis []]
  | path :: rest => .ident "package" :: .group .parenthesis [.str path] :: macroFor rest

theorem run_inputs {w : World} (paths : List String) (p : Pkg.Package) :
    ∃ ss, parseInput [] (macroFor paths) = .ok ss ∧ runStatements w p [] ss = ((addInputs w p paths).bind fun p => evalGenerateFunction w p []).bind fun tree => .ok (some tree) := by
  induction paths generalizing p with
  | nil => exact ⟨[.function "generate" []], by simp [macroFor, parseInput, parseStatement, parseFunction, Outcome.bind], by simp [runStatements, addInputs, Outcome.bind]⟩
  | cons path paths ih =>
    obtain ⟨ss, h1, _⟩ := ih p
    refine ⟨.function "package" [.str path] :: ss, by simp [macroFor, parseInput, parseStatement, parseFunction, Outcome.bind, h1], ?_⟩
    simp only [runStatements, if_true, evalPackageFunction, evalPathArguments, addInputs, String.empty_append]
    cases hd : addDirectory w p path with
    | ok q =>
      obtain ⟨ss', h2, h3⟩ := ih q
      rw [h1] at h2
      cases h2
      simp [Outcome.bind, hd] at h3 ⊢
      exact h3
    | error => simp [Outcome.bind, hd]
    | panic => simp [Outcome.bind, hd]

/-- **C125** (same as the macro): without the option `--external-package`, the program writes the code that the macro generates for the same directories; it writes nothing and fails if
the macro gives an error, and panics if the macro panics. Missing: the option, see `C125_external_counterexample`. -/
theorem C125_same_as_macro_partial (w : World) (works rustfmt : Bool) (paths : List String) :
    runCompile w works ⟨paths, none, rustfmt⟩ =
      match typesFromDsdl w (macroFor paths) with
      | .ok tree => .ok ⟨tree, true, works⟩
      | .error => .ok ⟨none, false, false⟩
      | .panic => .panic := by
  obtain ⟨ss, h1, h2⟩ := run_inputs (w := w) paths []
  unfold typesFromDsdl runCompile externalArgs
  simp only [h1, Outcome.bind] at h2 ⊢
  rw [h2]
  cases addInputs w [] paths with
  | ok p => cases hg : evalGenerateFunction w p [] <;> simp [hg]
  | error => rfl
  | panic => rfl

theorem splitChar_ne (d : Char) (cs : List Char) : splitChar d cs ≠ [] := by
  cases cs with
  | nil => simp [splitChar]
  | cons c cs => unfold splitChar; split <;> [simp; (split <;> simp)]

theorem splitChar_word {d : Char} (word rest : List Char) (h : d ∉ word) : splitChar d (word ++ d :: rest) = word :: splitChar d rest := by
  induction word with
  | nil => simp [splitChar]
  | cons c word ih =>
    have hc : c ≠ d := fun e => h (by simp [e])
    rw [List.cons_append, splitChar, if_neg hc, ih fun e => h (by simp [e])]

theorem splitChar_last {d : Char} (word : List Char) (h : d ∉ word) : splitChar d word = [word] := by
  induction word with
  | nil => rfl
  | cons c word ih =>
    have hc : c ≠ d := fun e => h (by simp [e])
    rw [splitChar, if_neg hc, ih fun e => h (by simp [e])]

theorem splitChar_joined {d : Char} (words : List (List Char)) (hne : words ≠ []) (h : ∀ w ∈ words, d ∉ w) : splitChar d (words.intersperse [d]).flatten = words := by
  induction words with
  | nil => exact absurd rfl hne
  | cons w words ih =>
    cases words with
    | nil => simpa using splitChar_last w (h w (by simp))
    | cons v words =>
      have := ih (by simp) fun u hu => h u (by simp at hu ⊢; tauto)
      simp only [List.intersperse_cons_cons, List.flatten_cons, List.cons_append, List.nil_append] at this ⊢
      rw [splitChar_word _ _ (h w (by simp)), this]

theorem splitColons_word (word rest : List Char) (h : ':' ∉ word) : splitColons (word ++ ':' :: ':' :: rest) = word :: splitColons rest := by
  induction word with
  | nil => simp [splitColons]
  | cons c word ih =>
    have hc : c ≠ ':' := fun e => h (by simp [e])
    have ih := ih fun e => h (by simp [e])
    cases word with
    | nil => simp only [List.cons_append, List.nil_append] at ih ⊢; rw [splitColons, if_neg (by simp [hc]), ih]
    | cons b word => simp only [List.cons_append] at ih ⊢; rw [splitColons, if_neg (by simp [hc]), ih]

theorem splitColons_last (word : List Char) (h : ':' ∉ word) : splitColons word = [word] := by
  induction word with
  | nil => rfl
  | cons c word ih =>
    have hc : c ≠ ':' := fun e => h (by simp [e])
    have ih := ih fun e => h (by simp [e])
    cases word with
    | nil => rfl
    | cons b word => rw [splitColons, if_neg (by simp [hc]), ih]

theorem splitColons_joined (words : List (List Char)) (hne : words ≠ []) (h : ∀ w ∈ words, ':' ∉ w) : splitColons (words.intersperse [':', ':']).flatten = words := by
  induction words with
  | nil => exact absurd rfl hne
  | cons w words ih =>
    cases words with
    | nil => simpa using splitColons_last w (h w (by simp))
    | cons v words =>
      have := ih (by simp) fun u hu => h u (by simp at hu ⊢; tauto)
      simp only [List.intersperse_cons_cons, List.flatten_cons, List.cons_append, List.nil_append] at this ⊢
      rw [splitColons_word _ _ (h w (by simp)), this]

/-- **C125** (values of the option): names with dots between them, a comma, and names with `::` between them are read as these names. -/
theorem C125_option_value (s : String) (package rustModule : List String) (hp : package ≠ []) (hm : rustModule ≠ []) (hpn : ∀ n ∈ package, ',' ∉ n.toList ∧ '.' ∉ n.toList)
    (hmn : ∀ n ∈ rustModule, ',' ∉ n.toList ∧ ':' ∉ n.toList)
    (hs : s.toList = ((package.map String.toList).intersperse ['.']).flatten ++ ',' :: ((rustModule.map String.toList).intersperse [':', ':']).flatten) :
    parseExternalPackage s = some (package, rustModule) := by
  have free {words : List String} {sep : List Char} (h : ∀ n ∈ words, ',' ∉ n.toList) (hsep : ',' ∉ sep) : ',' ∉ ((words.map String.toList).intersperse sep).flatten := by
    induction words with
    | nil => simp
    | cons w words ih =>
      cases words with
      | nil => simpa using h w (by simp)
      | cons v words =>
        have := ih fun n hn => h n (by simp at hn ⊢; tauto)
        simp only [List.map_cons, List.intersperse_cons_cons, List.flatten_cons, List.mem_append, not_or] at this ⊢
        exact ⟨h w (by simp), hsep, this⟩
  unfold parseExternalPackage
  rw [hs, splitChar_word _ _ (free (fun n hn => (hpn n hn).1) (by decide)), splitChar_last _ (free (fun n hn => (hmn n hn).1) (by decide))]
  simp only [Option.some.injEq, Prod.mk.injEq]
  rw [splitChar_joined _ (by simpa using hp) (by simpa using fun n hn => (hpn n hn).2), splitColons_joined _ (by simpa using hm) (by simpa using fun n hn => (hmn n hn).2)]
  have ofToList (l : List String) : (l.map String.toList).map String.ofList = l := by
    rw [List.map_map]
    conv_rhs => rw [← List.map_id l]
    exact List.map_congr_left fun a _ => by simp
  exact ⟨ofToList _, ofToList _⟩

example : parseExternalPackage "uavcan.node,canadensis_data_types::uavcan::node" = some (["uavcan", "node"], ["canadensis_data_types", "uavcan", "node"]) :=
  C125_option_value _ ["uavcan", "node"] ["canadensis_data_types", "uavcan", "node"] (by simp) (by simp) (by decide +kernel) (by decide +kernel) (by decide +kernel)

-- A directory for which the program writes code.
example : ∃ tree, typesFromDsdl demoWorld (macroFor ["/crate/../d"]) = .ok (some tree) ∧ decide (tree.at ["ns", "b_1_0"] ≠ []) = true := checked (by decide +kernel)

/-- **C125 does not hold** with the option `--external-package`: the program panics for all values that it accepts (canadensis_codegen_rust/src/main.rs L137, L159). -/
theorem C125_external_counterexample : parseExternalPackage "uavcan,types::uavcan" ≠ none ∧
    ∀ (w : World) (works rustfmt : Bool) (paths values : List String), (∀ v ∈ values, parseExternalPackage v ≠ none) → runCompile w works ⟨paths, some values, rustfmt⟩ = .panic := by
  refine ⟨by decide +kernel, fun w works rustfmt paths values h => ?_⟩
  have : values.all (fun v => (parseExternalPackage v).isSome) = true := List.all_eq_true.2 fun v hv => by
    rw [Option.isSome_iff_ne_none]; exact h v hv
  simp [runCompile, externalArgs, this, Outcome.bind]

/-- **C125 does not hold** for values with more than one comma: the rest is ignored. Empty names are accepted. -/
theorem C125_value_counterexample : parseExternalPackage "a,b,c" = some (["a"], ["b"]) ∧ parseExternalPackage "," = some ([""], [""]) := by decide +kernel

/-- **C125 does not hold** for the option `--rustfmt`: the code is formatted without it, and without rustfmt the program fails although it has written the code
(canadensis_codegen_rust/src/main.rs L167). -/
theorem C125_rustfmt_counterexample : ∃ tree, runCompile demoWorld false ⟨["/crate/../d"], none, false⟩ = .ok ⟨some tree, true, false⟩ := by
  obtain ⟨tree, h, _⟩ : ∃ tree, typesFromDsdl demoWorld (macroFor ["/crate/../d"]) = .ok (some tree) ∧ decide (tree.at ["ns", "b_1_0"] ≠ []) = true := checked (by decide +kernel)
  exact ⟨tree, by rw [C125_same_as_macro_partial, h]⟩

end Verif.Macro
