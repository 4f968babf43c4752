import Verif.Props.Recognition
import Verif.Spec.Compiling

/-!
# The syntax tree that is mutated is the one the compiler made

Properties C53 (which programs are recognized) and C67 (which tree is loaded).
-/

namespace Mutagenyx

variable {S : Type}

/-- The file holds this syntax tree of a program in the language. -/
def TreeIn (sys : Sys S) (file : String) (s : S) (lang : Language) (ast : Json) : Prop :=
  sys.readJson file s = some ast ∧ match lang with
    | .solidity => ast.getStrForKey "nodeType" = some "SourceUnit"
    | .vyper => (∃ v, Json.get? "contract_name" ast = some v) ∧ ∃ v, Json.get? "ast" ast = some v

namespace Loading

theorem push_of_last {t : String} {c : Char} (h : t.toList.getLast? = some c) :
    t = (String.ofList t.toList.dropLast).push c := by
  apply String.toList_injective
  rw [String.toList_push, String.toList_ofList]
  rw [List.getLast?_eq_some_iff] at h
  obtain ⟨l, hl⟩ := h
  rw [hl]; simp

theorem dropLast_push (v : String) (c : Char) : String.ofList (v.push c).toList.dropLast = v := by
  simp

/-- After the version is known. -/
def vyperRest (sys : Sys S) (p : Prefs) (file out : String) (dashO : Bool) : Act S String := do
  match ← sys.run (vyperCompiler p) (vyperAstArgs dashO out p file) with
  | some (true, text) =>
    if dashO then pure out
    else do
      if ← sys.create out text then pure out else Act.lift (.err .io)
  | _ => Act.lift (.err .sourceDoesNotCompile)

variable {sys : Sys S} {p : Prefs} {file base : String} {s : S}

theorem vyperAst_eq (hb : Path.fileName file = some base) :
    vyperAst sys file p s = Act.bind (vyperDashO sys (vyperCompiler p))
      (vyperRest sys p file (Path.join sys.tmp (base ++ ".json"))) s := by
  unfold vyperAst
  rw [hb]
  rfl

/-- Asking for the version. -/
theorem dashO_eq {r : Option (Bool × String)} {s1 : S} {c : String} (h : sys.exec c ["--version"] s = (r, s1)) :
    vyperDashO sys c s = ((match r with
      | none => .err .io
      | some (false, _) => .err .compilerNoVersion
      | some (true, out) => match out.toList.getLast? with
        | none => .panic
        | some c => if c.utf8Size = 1 then sys.dashO (String.ofList out.toList.dropLast) else .panic), s1) := by
  simp only [vyperDashO, bind, Act.bind, Sys.run, h]
  rcases r with _ | ⟨_ | _, out⟩
  · rfl
  · rfl
  · simp only
    cases out.toList.getLast? with
    | none => rfl
    | some c => simp only; split <;> rfl

theorem dashO_push {v : String} {ch : Char} {s1 : S} {c : String} (h : sys.exec c ["--version"] s = (some (true, v.push ch), s1))
    (hc : ch.utf8Size = 1) : vyperDashO sys c s = (sys.dashO v, s1) := by
  rw [dashO_eq h]
  simp [hc]

theorem rest_eq {out : String} {d : Bool} {r : Option (Bool × String)} {s2 : S}
    (h : sys.exec (vyperCompiler p) (vyperAstArgs d out p file) s = (r, s2)) :
    vyperRest sys p file out d s = (match r with
      | some (true, text) => if d then (.ok out, s2) else
          ((if (sys.write out text s2).1 then .ok out else .err .io), (sys.write out text s2).2)
      | _ => (.err .sourceDoesNotCompile, s2)) := by
  simp only [vyperRest, bind, Act.bind, Sys.run, h]
  rcases r with _ | ⟨_ | _, text⟩
  · rfl
  · rfl
  · cases d with
    | true => rfl
    | false =>
      simp only [Bool.false_eq_true, if_false, Act.bind, Sys.create]
      rcases sys.write out text s2 with ⟨_ | _, s3⟩ <;> rfl

/-- Asking the installed Vyper compiler, as the code does it. -/
theorem vyperAst_of_asked {b : Bool} {s' : S} (hb : Path.fileName file = some base)
    (h : VyperAsked sys p file (Path.join sys.tmp (base ++ ".json")) s b s') :
    if b then vyperAst sys file p s = (.ok (Path.join sys.tmp (base ++ ".json")), s')
    else ∃ e, vyperAst sys file p s = (.err e, s') := by
  rw [vyperAst_eq hb]
  unfold Act.bind
  cases h with
  | noVersion r s1 h1 h2 =>
    rw [dashO_eq h1]
    rcases r with _ | ⟨_ | _, text⟩
    · exact ⟨_, rfl⟩
    · exact ⟨_, rfl⟩
    · exact absurd rfl (h2 text)
  | unknownVersion v c e s1 h1 h2 h3 =>
    rw [dashO_push h1 h2, h3]
    exact ⟨_, rfl⟩
  | refused v c d r s1 s2 h1 h2 h3 h4 h5 =>
    rw [dashO_push h1 h2, h3]
    simp only
    rw [rest_eq h4]
    rcases r with _ | ⟨_ | _, text⟩
    · exact ⟨_, rfl⟩
    · exact ⟨_, rfl⟩
    · exact absurd rfl (h5 text)
  | writes v c text s1 s2 h1 h2 h3 h4 =>
    rw [dashO_push h1 h2, h3]
    simp only
    rw [rest_eq h4]
    rfl
  | says v c text done s1 s2 s3 h1 h2 h3 h4 h5 =>
    rw [dashO_push h1 h2, h3]
    simp only
    rw [rest_eq h4]
    simp only [Bool.false_eq_true, if_false, h5]
    cases b with
    | true => rfl
    | false => exact ⟨_, rfl⟩

theorem asked_of_vyperAst {o : Outcome String} {s' : S} (hb : Path.fileName file = some base)
    (h : vyperAst sys file p s = (o, s')) :
    (∀ out, o = .ok out → out = Path.join sys.tmp (base ++ ".json") ∧
      VyperAsked sys p file (Path.join sys.tmp (base ++ ".json")) s true s') ∧
    (∀ e, o = .err e → VyperAsked sys p file (Path.join sys.tmp (base ++ ".json")) s false s') := by
  rw [vyperAst_eq hb] at h
  unfold Act.bind at h
  rcases hv : sys.exec (vyperCompiler p) ["--version"] s with ⟨r, s1⟩
  have hno : (∀ text, r ≠ some (true, text)) → ∃ e, (o, s') = (.err e, s1) := by
    intro hr
    rw [dashO_eq hv] at h
    rcases r with _ | ⟨_ | _, text⟩
    · exact ⟨_, h.symm⟩
    · exact ⟨_, h.symm⟩
    · exact absurd rfl (hr text)
  by_cases hr : ∀ text, r ≠ some (true, text)
  · obtain ⟨e, he⟩ := hno hr
    cases he
    exact ⟨fun _ h => by (cases h), fun _ _ => .noVersion r _ hv hr⟩
  · have : ∃ text, r = some (true, text) := by simpa using hr
    obtain ⟨text, rfl⟩ := this
    rw [dashO_eq hv] at h
    simp only at h
    cases hl : text.toList.getLast? with
    | none =>
      rw [hl] at h
      cases h
      exact ⟨fun _ h => by (cases h), fun _ h => by (cases h)⟩
    | some c =>
      rw [hl] at h
      simp only at h
      by_cases hc : c.utf8Size = 1
      · rw [if_pos hc] at h
        rw [push_of_last hl] at hv
        generalize String.ofList text.toList.dropLast = v at h hv
        cases hd : sys.dashO v with
        | err e =>
          rw [hd] at h
          cases h
          exact ⟨fun _ h => by (cases h), fun _ _ => .unknownVersion v c e _ hv hc hd⟩
        | panic => rw [hd] at h; cases h; exact ⟨fun _ h => by (cases h), fun _ h => by (cases h)⟩
        | outOfFuel => rw [hd] at h; cases h; exact ⟨fun _ h => by (cases h), fun _ h => by (cases h)⟩
        | ok d =>
          rw [hd] at h
          simp only at h
          rcases hx : sys.exec (vyperCompiler p) (vyperAstArgs d (Path.join sys.tmp (base ++ ".json")) p file) s1 with ⟨r2, s2⟩
          rw [rest_eq hx] at h
          by_cases hr2 : ∀ text, r2 ≠ some (true, text)
          · have : (o, s') = (.err .sourceDoesNotCompile, s2) := by
              rcases r2 with _ | ⟨_ | _, text2⟩
              · exact h.symm
              · exact h.symm
              · exact absurd rfl (hr2 text2)
            cases this
            exact ⟨fun _ h => by (cases h), fun _ _ => .refused v c d r2 s1 _ hv hc hd hx hr2⟩
          · have : ∃ text, r2 = some (true, text) := by simpa using hr2
            obtain ⟨text2, rfl⟩ := this
            cases d with
            | true =>
              cases h
              exact ⟨fun _ h => by cases h; exact ⟨rfl, .writes v c text2 s1 _ hv hc hd hx⟩, fun _ h => by (cases h)⟩
            | false =>
              rcases hw : sys.write (Path.join sys.tmp (base ++ ".json")) text2 s2 with ⟨done, s3⟩
              simp only [Bool.false_eq_true, if_false, hw] at h
              cases done with
              | true =>
                cases h
                exact ⟨fun _ h => by cases h; exact ⟨rfl, .says v c text2 true s1 s2 _ hv hc hd hx hw⟩, fun _ h => by (cases h)⟩
              | false =>
                cases h
                exact ⟨fun _ h => by (cases h), fun _ _ => .says v c text2 false s1 s2 _ hv hc hd hx hw⟩
      · rw [if_neg hc] at h
        cases h
        exact ⟨fun _ h => by (cases h), fun _ h => by (cases h)⟩

theorem dockerAst_eq {r : Option (Bool × String)} {s' : S} (hb : Path.fileName file = some base)
    (h : sys.exec "docker" (dockerAstArgs (sys.tmp ++ "/" ++ base ++ ".json") p file) s = (r, s')) :
    dockerAst sys file p s =
      ((if succeeded r then .ok (sys.tmp ++ "/" ++ base ++ ".json") else .err .sourceDoesNotCompile), s') := by
  simp only [dockerAst, hb, bind, Act.bind, Act.unwrap, Act.lift, Sys.run, h]
  cases succeeded r <;> rfl

theorem solidityAst_eq {r : Option (Bool × String)} {s' : S} (hb : Path.fileName file = some base)
    (h : sys.exec (solidityCompiler p) (solidityAstArgs sys.tmp p file) s = (r, s')) :
    solidityAst sys file p s =
      ((if succeeded r then .ok (sys.tmp ++ "/" ++ base ++ "_json.ast") else .err .sourceDoesNotCompile), s') := by
  simp only [solidityAst, hb, bind, Act.bind, Act.unwrap, Act.lift, Sys.run, h]
  cases succeeded r <;> rfl

theorem succeeded_iff {r : Option (Bool × String)} : succeeded r = true ↔ ∃ text, r = some (true, text) := by
  rcases r with _ | ⟨_ | _, text⟩ <;> simp [succeeded]

theorem not_succeeded_iff {r : Option (Bool × String)} : succeeded r = false ↔ ∀ text, r ≠ some (true, text) := by
  rcases r with _ | ⟨_ | _, text⟩ <;> simp [succeeded]

/-- The file with the syntax tree of a program, if the compilers accept it. -/
def compileTo (sys : Sys S) (file : String) (p : Prefs) : Language → Act S (Option String)
  | .solidity => Act.attempt (solidityAst sys file p)
  | .vyper => do
    match ← Act.attempt (vyperAst sys file p) with
    | some out => pure (some out)
    | none => Act.attempt (dockerAst sys file p)

theorem compileTo_iff (hb : Path.fileName file = some base) (lang : Language) (o : Option String) (s' : S) :
    compileTo sys file p lang s = (.ok o, s') ↔ Compiled sys p file base s lang o s' := by
  cases lang with
  | solidity =>
    rcases h : sys.exec (solidityCompiler p) (solidityAstArgs sys.tmp p file) s with ⟨r, s1⟩
    simp only [compileTo, Act.attempt, solidityAst_eq hb h]
    cases hr : succeeded r with
    | true =>
      obtain ⟨text, rfl⟩ := succeeded_iff.1 hr
      constructor
      · intro h'; cases h'; exact .solidity text _ h
      · intro h'
        cases h' with
        | solidity text' _ h' => rw [h] at h'; cases h'; rfl
        | notSolidity r' _ h' hn => rw [h] at h'; cases h'; exact absurd rfl (hn text)
    | false =>
      have hn := not_succeeded_iff.1 hr
      constructor
      · intro h'; cases h'; exact .notSolidity r _ h hn
      · intro h'
        cases h' with
        | solidity text' _ h' => rw [h] at h'; cases h'; exact absurd rfl (hn text')
        | notSolidity r' _ h' _ => rw [h] at h'; cases h'; rfl
  | vyper =>
    rcases hv : vyperAst sys file p s with ⟨ov, s1⟩
    have hk := asked_of_vyperAst hb hv
    have hdet : ∀ b s'', VyperAsked sys p file (Path.join sys.tmp (base ++ ".json")) s b s'' →
        s'' = s1 ∧ (b = true → ov = .ok (Path.join sys.tmp (base ++ ".json"))) ∧ (b = false → ∃ e, ov = .err e) := by
      intro b s'' h
      have := vyperAst_of_asked hb h
      cases b with
      | true =>
        have this : vyperAst sys file p s = _ := this
        rw [hv] at this; cases this; exact ⟨rfl, fun _ => rfl, fun h => by cases h⟩
      | false =>
        obtain ⟨e, this⟩ := this
        rw [hv] at this; cases this; exact ⟨rfl, fun h => by (cases h), fun _ => ⟨e, rfl⟩⟩
    simp only [compileTo, bind, Act.bind, Act.attempt, hv]
    cases ov with
    | ok out =>
      obtain ⟨rfl, ha⟩ := hk.1 out rfl
      constructor
      · intro h'; cases h'; exact .vyper _ ha
      · intro h'
        cases h' with
        | vyper _ h' => rw [(hdet _ _ h').1]; rfl
        | docker _ _ _ h' => obtain ⟨e, he⟩ := (hdet _ _ h').2.2 rfl; cases he
        | notVyper _ _ _ h' => obtain ⟨e, he⟩ := (hdet _ _ h').2.2 rfl; cases he
    | err e =>
      have ha := hk.2 e rfl
      rcases h : sys.exec "docker" (dockerAstArgs (sys.tmp ++ "/" ++ base ++ ".json") p file) s1 with ⟨r, s2⟩
      simp only [Act.attempt, dockerAst_eq hb h]
      cases hr : succeeded r with
      | true =>
        obtain ⟨text, rfl⟩ := succeeded_iff.1 hr
        constructor
        · intro h'; cases h'; exact .docker text _ _ ha h
        · intro h'
          cases h' with
          | vyper _ h' => have := (hdet _ _ h').2.1 rfl; cases this
          | docker text' _ _ h1 h' => rw [(hdet _ _ h1).1, h] at h'; cases h'; rfl
          | notVyper r' _ _ h1 h' hn => rw [(hdet _ _ h1).1, h] at h'; cases h'; exact absurd rfl (hn text)
      | false =>
        have hn := not_succeeded_iff.1 hr
        constructor
        · intro h'; cases h'; exact .notVyper r _ _ ha h hn
        · intro h'
          cases h' with
          | vyper _ h' => have := (hdet _ _ h').2.1 rfl; cases this
          | docker text' _ _ h1 h' => rw [(hdet _ _ h1).1, h] at h'; cases h'; exact absurd rfl (hn text')
          | notVyper r' _ _ h1 h' _ => rw [(hdet _ _ h1).1, h] at h'; cases h'; rfl
    | panic =>
      constructor
      · intro h'; cases h'
      · intro h'
        cases h' with
        | vyper _ h' => have := (hdet _ _ h').2.1 rfl; cases this
        | docker _ _ _ h' => obtain ⟨e, he⟩ := (hdet _ _ h').2.2 rfl; cases he
        | notVyper _ _ _ h' => obtain ⟨e, he⟩ := (hdet _ _ h').2.2 rfl; cases he
    | outOfFuel =>
      constructor
      · intro h'; cases h'
      · intro h'
        cases h' with
        | vyper _ h' => have := (hdet _ _ h').2.1 rfl; cases this
        | docker _ _ _ h' => obtain ⟨e, he⟩ := (hdet _ _ h').2.2 rfl; cases he
        | notVyper _ _ _ h' => obtain ⟨e, he⟩ := (hdet _ _ h').2.2 rfl; cases he

theorem isSource_eq (lang : Language) : isSource sys lang file p s = Act.bind (compileTo sys file p lang) (fun o => pure o.isSome) s := by
  cases lang with
  | solidity => rfl
  | vyper =>
    show Act.bind (Act.attempt (vyperAst sys file p)) _ s = Act.bind (Act.bind (Act.attempt (vyperAst sys file p)) _) _ s
    unfold Act.bind
    rcases Act.attempt (vyperAst sys file p) s with ⟨_ | _ | _ | _, s1⟩
    · rename_i o
      cases o with
      | none => rfl
      | some out => rfl
    all_goals rfl

theorem convertSource_eq (lang : Language) : convertSource sys lang file p s = Act.bind (compileTo sys file p lang) (fun o =>
    match o with
    | some out => do asAst lang (← sys.load out)
    | none => Act.lift (.err .sourceDoesNotCompile)) s := by
  cases lang with
  | solidity => rfl
  | vyper =>
    show Act.bind (Act.attempt (vyperAst sys file p)) _ s = Act.bind (Act.bind (Act.attempt (vyperAst sys file p)) _) _ s
    unfold Act.bind
    rcases Act.attempt (vyperAst sys file p) s with ⟨_ | _ | _ | _, s1⟩
    · rename_i o
      cases o with
      | none => rfl
      | some out => rfl
    all_goals rfl

/-- Reading a syntax tree from a file. -/
theorem load_iff (lang : Language) (f : String) (ast : Json) (s' : S) :
    Act.bind (sys.load f) (fun j => asAst lang j) s = (.ok ast, s') ↔ s' = s ∧ TreeIn sys f s lang ast := by
  unfold Act.bind Sys.load TreeIn asAst Act.lift
  cases hj : sys.readJson f s with
  | none => simp
  | some j =>
    cases lang with
    | solidity =>
      simp only [isAstJson, decide_eq_true_eq, Option.some.injEq, Prod.mk.injEq]
      by_cases h : Json.getStrForKey "nodeType" j = some "SourceUnit"
      · rw [if_pos h]
        constructor
        · rintro ⟨h1, rfl⟩; cases h1; exact ⟨rfl, rfl, h⟩
        · rintro ⟨rfl, rfl, -⟩; exact ⟨rfl, rfl⟩
      · rw [if_neg h]
        constructor
        · rintro ⟨h1, -⟩; cases h1
        · rintro ⟨-, rfl, h'⟩; exact absurd h' h
    | vyper =>
      have hiff : isAstJson .vyper j = true ↔
          (∃ v, Json.get? "contract_name" j = some v) ∧ ∃ v, Json.get? "ast" j = some v := by
        simp only [isAstJson, Bool.and_eq_true, Json.hasValueForKey, Option.isSome_iff_exists]
      simp only [Option.some.injEq, Prod.mk.injEq]
      by_cases h : isAstJson .vyper j = true
      · rw [if_pos h]
        constructor
        · rintro ⟨h1, rfl⟩; cases h1; exact ⟨rfl, rfl, hiff.1 h⟩
        · rintro ⟨rfl, rfl, -⟩; exact ⟨rfl, rfl⟩
      · rw [if_neg h]
        constructor
        · rintro ⟨h1, -⟩; cases h1
        · rintro ⟨-, rfl, h'⟩; exact absurd (hiff.2 h') h

end Loading

open Loading

/-- **C53, programs.** A file is taken for a program of a language exactly if the compilers of the language, with the
configured settings, accept it. -/
theorem C53_compilers (sys : Sys S) (file base : String) (hb : Path.fileName file = some base) (p : Prefs) (lang : Language)
    (s s' : S) (b : Bool) :
    isSource sys lang file p s = (.ok b, s') ↔ ∃ o, Compiled sys p file base s lang o s' ∧ b = o.isSome := by
  rw [isSource_eq]
  constructor
  · intro h
    unfold Act.bind at h
    rcases hc : compileTo sys file p lang s with ⟨o | e | _ | _, s1⟩ <;> rw [hc] at h <;> cases h
    exact ⟨o, (compileTo_iff hb lang o _).1 hc, rfl⟩
  · rintro ⟨o, h, rfl⟩
    unfold Act.bind
    rw [(compileTo_iff hb lang o _).2 h]
    rfl

/-- **C67, programs.** The tree that is loaded for a program is the one in the file that its compiler made for it. -/
theorem C67_program (sys : Sys S) (file base : String) (hb : Path.fileName file = some base) (p : Prefs) (lang : Language)
    (s s' : S) (ast : Json) :
    loadAst sys lang .source file p s = (.ok ast, s') ↔
      ∃ out, Compiled sys p file base s lang (some out) s' ∧ TreeIn sys out s' lang ast := by
  show convertSource sys lang file p s = _ ↔ _
  rw [convertSource_eq]
  constructor
  · intro h
    unfold Act.bind at h
    rcases hc : compileTo sys file p lang s with ⟨o | e | _ | _, s1⟩ <;> rw [hc] at h
    · cases o with
      | none => cases h
      | some out =>
        obtain ⟨rfl, ht⟩ := (load_iff lang out ast s').1 h
        exact ⟨out, (compileTo_iff hb lang _ _).1 hc, ht⟩
    all_goals cases h
  · rintro ⟨out, h, ht⟩
    unfold Act.bind
    rw [(compileTo_iff hb lang _ _).2 h]
    exact (load_iff lang out ast s').2 ⟨rfl, ht⟩

/-- **C67, trees.** The tree that is loaded for a file with a syntax tree is the one in it, and a file is not loaded if
there is none of the language. -/
theorem C67_tree (sys : Sys S) (file : String) (p : Prefs) (lang : Language) (s s' : S) (ast : Json) :
    loadAst sys lang .ast file p s = (.ok ast, s') ↔ s' = s ∧ TreeIn sys file s lang ast :=
  load_iff lang file ast s'

/-- Example: the program of the examples is loaded. -/
example : TreeIn DemoSystem.sys "/tmp/a.sol_json.ast" (loadAst DemoSystem.sys .solidity .source "/in/a.sol" Prefs.new DemoSystem.disk).2
    .solidity (.obj [("nodeType", .str "SourceUnit")]) ∧
    (loadAst DemoSystem.sys .solidity .source "/in/a.sol" Prefs.new DemoSystem.disk).1 = .ok (.obj [("nodeType", .str "SourceUnit")]) ∧
    (loadAst DemoSystem.sys .vyper .source "/in/x.vy" Prefs.new DemoSystem.disk).1 =
      .ok (.obj [("ast", .obj []), ("contract_name", .str "x.vy")]) ∧
    (loadAst DemoSystem.sys .solidity .ast "/in/t.json" Prefs.new DemoSystem.disk).1 = .err .languageNotRecognized := by
  refine ⟨⟨by decide +kernel, by decide +kernel⟩, ?_⟩
  decide +kernel

end Mutagenyx
