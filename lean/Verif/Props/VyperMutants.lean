import Verif.Proofs.VyperMutants
import Verif.Props.Results
import Verif.Props.VyperProgram
import Verif.Spec.DemoVyper

/-!
# C75: a written Vyper mutant is the program with one change
-/

namespace Mutagenyx
namespace VyPrint
open VyGrammar Json

variable {S R : Type} [Rand R]

/-- What the tree needs so that mutations of it are changes of the program: the nodes that can be mutated are parts of the
program and not functions of an interface, and the ids of nodes in functions of interfaces are not 0 and are not found in nodes
that can be mutated, other than the module itself, nor are they ids of the module or of a declaration. -/
structure Mutable (R : Type) [Rand R] (env : MutEnv) (types : List MutationType) (ast : Json) : Prop where
  visible : ∀ t ∈ types, ∀ m : Mutator R, Vyper.mutatorFor env t = some m → ∀ pos node, nodeAt pos ast = some node →
    m.isMutable node = true → visible pos ast = true
  functions : ∀ t ∈ types, ∀ m : Mutator R, Vyper.mutatorFor env t = some m → ∀ pos node, nodeAt pos ast = some node →
    m.isMutable node = true → ∀ f, ¬ ShowFunctions [f] [node]
  ids : ∀ id, InInterface id ast → id ≠ 0 ∧ vyperId ast ≠ some id ∧
    (∀ ds d, Json.field? "body" ast = some (.arr ds) → d ∈ ds → vyperId d ≠ some id) ∧
    ∀ t ∈ types, ∀ m : Mutator R, Vyper.mutatorFor env t = some m →
      ∀ pos node, nodeAt pos ast = some node → pos ≠ [] → m.isMutable node = true → ¬ ContainsId vyperId id node

theorem printed {env : PrintEnv} {j : Json} {t : List Char} (h : printText env j = .ok t) :
    Language.print env .vyper j = .ok (String.ofList t) := by
  unfold printText at h
  unfold Language.print printedText
  show (match Printer.run env.checks (printOps env {} j) (Printer.new 4 150) with | .ok p => _ | .err e => _ | .panic => _ | .outOfFuel => _) = _
  split at h <;> simp_all

theorem showDecls_split : (xs : List Json) → {ys : List Json} → {es : List Decl} → ShowDecls es (xs ++ ys) →
    ∃ a b, es = a ++ b ∧ ShowDecls a xs ∧ ShowDecls b ys
  | [], ys, es, h => ⟨[], es, rfl, by simp [ShowDecls], h⟩
  | _ :: _, _, [], h => by simp [ShowDecls] at h
  | x :: xs, ys, e :: es, h => by
    simp only [List.cons_append, ShowDecls] at h
    obtain ⟨a, b, rfl, h1, h2⟩ := showDecls_split xs h.2
    exact ⟨e :: a, b, rfl, by simp only [ShowDecls]; exact ⟨h.1, h1⟩, h2⟩

theorem showDecls_join : (xs : List Json) → {ys : List Json} → {a b : List Decl} → ShowDecls a xs → ShowDecls b ys → ShowDecls (a ++ b) (xs ++ ys)
  | [], _, [], _, _, h => h
  | [], _, _ :: _, _, h, _ => by simp [ShowDecls] at h
  | _ :: _, _, [], _, h, _ => by simp [ShowDecls] at h
  | x :: xs, ys, e :: a, b, h, h2 => by
    simp only [List.cons_append, ShowDecls] at h ⊢
    exact ⟨h.1, showDecls_join xs h.2 h2⟩

/-- The module is not a part of itself. -/
theorem module_top {prog : Program} {ast node : Json} {pos : Pos} (hshow : ShowsProgram prog ast) (hp : PartAt node pos ast)
    (ht : IsA "Module" node) : pos = [] := by
  refine Classical.byContradiction fun hne => ?_
  have hc : Carries noChange node node := by
    refine ⟨⟨_, by decide, ht⟩, fun f hf => (shows_not hf ht (by decide)).elim, fun s hx => (showsSimple_not hx ht (by decide)).elim,
      fun s hx hst => ?_, fun ds g doc b hd => absurd (isA_unique ht hd.1.1) (by decide)⟩
    exfalso
    cases s with
    | simple x => exact hx x rfl
    | for_ => simp only [ShowsStmt] at hst; exact absurd (isA_unique ht hst.1) (by decide)
    | if_ => simp only [ShowsStmt] at hst; exact absurd (isA_unique ht hst.1) (by decide)
    | comment => simp only [ShowsStmt] at hst; exact absurd (isA_unique ht hst.1) (by decide)
    | quote => simp only [ShowsStmt] at hst; exact absurd (isA_unique ht hst.1) (by decide)
  rcases program_edit hc hshow (fun hi => absurd (isA_unique ht hi) (by decide)) hp hne with ⟨a', _, h2⟩ | ⟨bs, d, _, _, _, _, _, fs, _, _, g, m, h6⟩
  · exact inProgram_never h2
  · simp only [ShowFunctions, and_true] at h6
    exact absurd (isA_unique ht h6.1.1) (by decide)

/-- A declaration of the module is turned into a comment. -/
theorem module_mutation {env : MutEnv} {m : Mutator R} (hm : Vyper.mutatorFor env .deleteStatement = some m) {prog : Program}
    {ast : Json} (hshow : ShowsProgram prog ast) {node' : Json} (hmu : m.isMutable ast = true) {rng rng' : R} {rep : MutatorResult}
    {comment : Option Json} (h : m.mutate ast rng = .ok (node', rep, comment, rng')) (hw : Writable .deleteStatement node') :
    ∃ prog', InProgram (changeOf env.floatText .deleteStatement) prog prog' ∧ ShowsProgram prog' node' ∧
      (∀ i, InInterface i node' → InInterface i ast) ∧ vyperId node' = vyperId ast ∧
      ∃ ds d, Json.field? "body" ast = some (.arr ds) ∧ d ∈ ds ∧ rep.mutatedNodeId = vyperId d := by
  obtain ⟨⟨ss, ss', more, i, v, w, h1, h2, h3, hv, hwt, hwv, hid, hlen, hmore, _⟩, h4⟩ := C34_vyper hm hmu h
  have hs := onlyField_sets h4 h2
  obtain ⟨ht, hdoc, bs, hbs, hall⟩ := hshow
  rw [← field?_eq_field] at h1 hwv
  rw [h1] at hbs
  cases hbs
  obtain ⟨pre, post, rfl, rfl⟩ := deleted_parts h3 hv
  obtain ⟨hq, hmod⟩ := hw.1 rfl _ hs.field
  have hmod := hmod (hs.isA (by decide) ht)
  have hnil : more = [] := by
    rcases hmore with h | ⟨x, rfl, hx⟩
    · exact h
    · have := hmod x (by simp)
      rcases hx with hx | hx
      · exact absurd (kind_isA.1 hx) this.1
      · exact absurd (kind_isA.1 hx) this.2
  subst hnil
  rw [List.append_nil] at hq hs
  obtain ⟨doc, decls⟩ := prog
  simp only at hall hdoc
  obtain ⟨a, r, rfl, g1, g2⟩ := showDecls_split pre hall
  cases r with
  | nil => simp [ShowDecls] at g2
  | cons e b =>
    simp only [ShowDecls] at g2
    refine ⟨⟨doc, a ++ .quote e :: b⟩, .mk (.here (.inr rfl)), ⟨hs.isA (by decide) ht, doc_keep hdoc hs (by decide),
      _, hs.field, showDecls_join pre g1 ?_⟩, ?_, vyperId_onlyField (by decide) h4, _, v, h1, by simp, hid⟩
    · simp only [ShowDecls]
      exact ⟨⟨kind_isA.1 hwt, v, hwv, g2.1⟩, g2.2⟩
    · intro i hi
      rw [inInterface_iff] at hi ⊢
      obtain ⟨bs, d, k1, k2, k3⟩ := hi
      rw [hs.field] at k1
      cases k1
      simp only [List.mem_append, List.mem_cons] at k2
      rcases k2 with k2 | rfl | k2
      · exact ⟨_, d, h1, by simp [k2], k3⟩
      · refine ⟨_, v, h1, by simp, ?_⟩
        obtain ⟨d1, fs, f, xs, x, k4, k5, k6⟩ := k3
        cases k4 with
        | here => exact absurd (isA_unique (kind_isA.1 hwt) k5) (by decide)
        | comment _ k7 k8 =>
          rw [hwv] at k7
          cases k7
          exact ⟨d1, fs, f, xs, x, k8, k5, k6⟩
      · exact ⟨_, d, h1, by simp [k2], k3⟩

/-- The mutation of a part of the module. -/
theorem one_mutation {env : MutEnv} {t : MutationType} {m : Mutator R} (hm : Vyper.mutatorFor env t = some m) {prog : Program}
    {ast : Json} (hshow : ShowsProgram prog ast) (hok : t = .integer → prog.Ok) (hmut : Mutable R env [t] ast) {pos : Pos}
    {node node' : Json} (hn : nodeAt pos ast = some node) (hmu : m.isMutable node = true) {rng rng' : R} {rep : MutatorResult}
    {comment : Option Json} (h : m.mutate node rng = .ok (node', rep, comment, rng')) (hw : Writable t node') :
    ∃ prog', InProgram (changeOf env.floatText t) prog prog' ∧ ShowsProgram prog' (replaceAt pos node' ast) ∧
      ∀ c mutant, comment = some c → CommentAdded .vyper (commentTarget .vyper rep node') c (replaceAt pos node' ast) mutant →
        ∃ prog'', ShowsProgram prog'' mutant ∧
          (prog'' = prog' ∨ ∃ text, c = Vyper.commentNode text ∧ NewComment text prog' prog'') := by
  have hp : PartAt node pos ast := ⟨hn, hmut.visible t List.mem_cons_self m hm pos node hn hmu⟩
  by_cases hmod : IsA "Module" node
  · have ht : t = .deleteStatement := by
      have hne : ∀ {u}, u ≠ "Module" → Vyper.hasType u node = false := by
        intro u hu
        cases hh : Vyper.hasType u node with
        | false => rfl
        | true => exact absurd (isA_unique (kind_isA.1 (vyper_hasType.1 hh)) hmod) hu
      cases t with
      | deleteStatement => rfl
      | require => cases hm
      | uncheckedBlock => cases hm
      | elimDelegateCall => cases hm
      | _ =>
        exfalso
        cases hm
        simp [Vyper.binaryOpMutable, Vyper.isBinary, Vyper.assignmentMutable, Vyper.functionCallMutable, Vyper.swapArgumentsMutable,
          Vyper.ifMutable, Vyper.swapOperandsMutable, Vyper.swapOperandsTest, Vyper.swapLinesMutable, Vyper.unaryOpMutable,
          Vyper.integerMutable, hne] at hmu
    subst ht
    have hpos : pos = [] := module_top hshow hp hmod
    subst hpos
    have hj : ast = node := by simpa [nodeAt] using hn
    subst hj
    obtain ⟨prog', g1, g2, g3, g4, ds, d, g5, g6, g7⟩ := module_mutation hm hshow hmu h hw
    refine ⟨prog', g1, g2, fun c mutant hc hadd => ?_⟩
    subst hc
    obtain ⟨text, rfl⟩ := comment_text hm h
    rcases program_comment g2 (commentNode_type text).1 (commentNode_type text).2 hadd with h3 | h3
    · obtain ⟨b, k1, k2⟩ := h3
      exact ⟨b, k1, k2.imp_right fun g => ⟨text, rfl, g⟩⟩
    · exfalso
      obtain ⟨h4, h5, h6, -⟩ := hmut.ids _ (g3 _ h3)
      unfold commentTarget at h4 h5 h6
      cases hr : rep.mutatedNodeId with
      | some i => rw [hr] at h6 g7; exact h6 ds d g5 g6 g7.symm
      | none =>
        simp only [hr] at h4 h5
        cases hi : nodeIdIn .vyper node' with
        | none => rw [hi] at h4; exact absurd rfl h4
        | some i => rw [hi] at h5; exact h5 (by rw [← g4]; exact hi)
  have hM : Mutates (changeOf env.floatText t) node node' rep.mutatedNodeId := by
    rcases mutates hm hmu h hw hmod (fun g mm => hmut.functions t List.mem_cons_self m hm pos node hn hmu (g, mm)) with h | ⟨hb, hno⟩
    · exact h
    · obtain ⟨u, hu, hu2⟩ := isBinary_type hb
      obtain ⟨f, hf⟩ := binary_shown hshow hp hu hu2
      exact absurd hf (hno f)
  have hint : IsA "Int" node → prog.Ok := by
    intro hi
    refine hok ?_
    have hk := vyper_hasType.2 (kind_isA.2 hi)
    cases t with
    | integer => rfl
    | require => cases hm
    | uncheckedBlock => cases hm
    | elimDelegateCall => cases hm
    | _ =>
      exfalso
      have hne : ∀ {u}, u ≠ "Int" → Vyper.hasType u node = false := by
        intro u hu
        cases hh : Vyper.hasType u node with
        | false => rfl
        | true => exact absurd (isA_unique (kind_isA.1 (vyper_hasType.1 hh)) hi) hu
      cases hm
      simp [Vyper.binaryOpMutable, Vyper.isBinary, Vyper.assignmentMutable, Vyper.functionCallMutable, Vyper.swapArgumentsMutable,
        Vyper.ifMutable, Vyper.swapOperandsMutable, Vyper.swapOperandsTest, Vyper.swapLinesMutable, Vyper.unaryOpMutable,
        Vyper.deleteStatementMutable, hne] at hmu
  have hne : pos ≠ [] := by
    rintro rfl
    have hj : ast = node := by simpa [nodeAt] using hn
    subst hj
    exact hM.inner hshow.1
  rcases program_edit hM.carries hshow hint hp hne with ⟨a', h1, h2⟩ | ⟨_, _, _, _, _, _, _, _, _, _, g, mm, h6⟩
  case inr => exact absurd h6 (hM.function g mm)
  refine ⟨a', h2, h1, fun c mutant hc hadd => ?_⟩
  subst hc
  obtain ⟨text, rfl⟩ := comment_text hm h
  rcases program_comment h1 (commentNode_type text).1 (commentNode_type text).2 hadd with h3 | h3
  · obtain ⟨b, g1, g2⟩ := h3
    exact ⟨b, g1, g2.imp_right fun g => ⟨text, rfl, g⟩⟩
  · exfalso
    obtain ⟨h4, -, -, h5⟩ := hmut.ids _ (interface_edit hM hshow hint hp hne h3)
    refine h5 t List.mem_cons_self m hm pos node hn hne hmu ?_
    unfold commentTarget at h4 ⊢
    cases hr : rep.mutatedNodeId with
    | some i => exact hM.reported i hr
    | none =>
      simp only [hr] at h4 ⊢
      cases hi : nodeIdIn .vyper node' with
      | none => rw [hi] at h4; exact absurd rfl h4
      | some i => exact hM.new i hi

theorem nodeAt_file {name : String} {j n : Json} {pos : Pos} (h : nodeAt pos (fileTree name j) = some n) (ho : IsObj n) :
    pos = [] ∧ n = fileTree name j ∨ ∃ q, pos = 0 :: q ∧ nodeAt q j = some n := by
  cases pos with
  | nil => exact .inl ⟨rfl, by simpa [nodeAt] using h.symm⟩
  | cons i q =>
    match i, h with
    | 0, h => exact .inr ⟨q, rfl, h⟩
    | 1, h =>
      have h : nodeAt q (.str name) = some n := h
      cases q with
      | nil => cases h; exact ho.elim
      | cons _ _ => cases h
    | i + 2, h => cases h

theorem replaceAt_file (name : String) (j n : Json) (q : Pos) :
    replaceAt (0 :: q) n (fileTree name j) = fileTree name (replaceAt q n j) := rfl

theorem comment_file {name : String} {id : Nat} {c j mutant : Json} (h : CommentAdded .vyper id c (fileTree name j) mutant) :
    ∃ j', mutant = fileTree name j' ∧ CommentAdded .vyper id c j j' := by
  cases h with
  | inList p i b pre post s h1 h2 h3 h4 h5 =>
    obtain ⟨kvs, t, k, hb, ht, hrest⟩ := h2
    rcases nodeAt_file h1 (hb ▸ trivial) with ⟨rfl, rfl⟩ | ⟨q, rfl, hq⟩
    · cases ht
    · exact ⟨_, replaceAt_file name j _ (q ++ [i]), .inList q i b pre post s hq ⟨kvs, t, k, hb, ht, hrest⟩ h3 h4 h5⟩
  | atTop _ _ _ _ h => cases h
  | inBlock _ _ _ _ _ h => cases h

/-- No mutator takes a node without a type. -/
theorem mutable_obj {env : MutEnv} {t : MutationType} {m : Mutator R} (hm : Vyper.mutatorFor env t = some m) {n : Json}
    (h : m.isMutable n = true) : IsObj n ∧ ∃ u, IsA u n := by
  have key : ∀ {u}, Vyper.hasType u n = true → IsObj n ∧ ∃ u, IsA u n := fun h =>
    ⟨isVyperKind_isObj (vyper_hasType.1 h), _, kind_isA.1 (vyper_hasType.1 h)⟩
  cases t with
  | require => cases hm
  | uncheckedBlock => cases hm
  | elimDelegateCall => cases hm
  | _ =>
    cases hm
    simp only [Vyper.binaryOpMutable, Vyper.isBinary, Vyper.assignmentMutable, Vyper.functionCallMutable,
      Vyper.swapArgumentsMutable, Vyper.ifMutable, Vyper.swapOperandsMutable, Vyper.swapOperandsTest, Vyper.swapLinesMutable,
      Vyper.unaryOpMutable, Vyper.deleteStatementMutable, Bool.and_eq_true, Bool.or_eq_true] at h
    first
      | exact key h
      | exact key h.1
      | exact h.1.elim key key
      | exact h.1.elim (·.elim key key) key
      | exact h.1.elim (·.elim (·.elim key key) key) key
      | exact h.elim key key
      | exact h.elim (·.elim key key) key
      | (split at h
         · rename_i hb
           exact hb.elim (·.elim key key) key
         · simp at h)

/-- **C75 (one mutation).** A mutation of a part of the tree of a program gives the tree of the program with one change of the
kind that the algorithm makes, and the comment beside it changes nothing else.  Missing: the deletion of results
that are tuples or lists when they are the only statement, and of the only declaration of a module, and assigned numbers that do not fit into 64 bits. -/
theorem C75_one_partial {env : MutEnv} {t : MutationType} {m : Mutator R} (hm : Vyper.mutatorFor env t = some m) {prog : Program}
    {name : String} {ast : Json} (hshow : ShowsProgram prog ast) (hok : t = .integer → prog.Ok) (hmut : Mutable R env [t] ast)
    {pos : Pos} {node node' : Json} (hn : nodeAt pos (fileTree name ast) = some node) (hmu : m.isMutable node = true)
    {rng rng' : R} {rep : MutatorResult} {comment : Option Json} (h : m.mutate node rng = .ok (node', rep, comment, rng'))
    (hw : Writable t node') :
    ∃ prog' ast', InProgram (changeOf env.floatText t) prog prog' ∧ ShowsProgram prog' ast' ∧
      replaceAt pos node' (fileTree name ast) = fileTree name ast' ∧
      ∀ c mutant, comment = some c → CommentAdded .vyper (commentTarget .vyper rep node') c (fileTree name ast') mutant →
        ∃ prog'' ast'', mutant = fileTree name ast'' ∧ ShowsProgram prog'' ast'' ∧
          (prog'' = prog' ∨ ∃ text, c = Vyper.commentNode text ∧ NewComment text prog' prog'') := by
  obtain ⟨ho, u, hu⟩ := mutable_obj hm hmu
  rcases nodeAt_file hn ho with ⟨rfl, rfl⟩ | ⟨q, rfl, hq⟩
  · cases hu
  obtain ⟨prog', h1, h2, h3⟩ := one_mutation hm hshow hok hmut hq hmu h hw
  refine ⟨prog', _, h1, h2, replaceAt_file name ast node' q, fun c mutant hc hadd => ?_⟩
  obtain ⟨j', rfl, hj⟩ := comment_file hadd
  obtain ⟨prog'', h4, h5⟩ := h3 c j' hc hj
  exact ⟨prog'', j', rfl, h4, h5⟩

/-- **C75.** After a run that ends well for a Vyper program, each file for a mutant is the program with one change of the kind that
one of the algorithms makes, and with a comment: read back, it is that changed program, and read with comments and documentation it
is that changed program with the new comment.  Missing: the deletion of
results that are tuples or lists when they are the only statement, and of the only declaration of a module, assigned numbers that do not fit into 64 bits,
and changed programs that are not printed as they are (property C74), like `~a ** b` (`C75_power_counterexample`), or with a deleted
statement that does not fit on one line. -/
theorem C75_written_partial (m : Machine S R) (hsh : ∀ l, (m.shuffle l).Perm l) {content : String → S → Option String}
    (hc : Contents m.toSys content) (hw : ∀ f t s, (m.write f t s).1 = true → content f (m.write f t s).2 = some t)
    (env : PrintEnv) (hprint : ∀ j, m.print .vyper j = Language.print env .vyper j)
    (fuel : Nat) (p : Params R) (s s' : S) (base : String)
    (hb : Path.fileName p.fileName = some base) (hs : p.useStdout = false) (name : String) (ast : Json)
    (hr : (m.reading p s).1 = .ok (.vyper, fileTree name ast))
    (htmp : ∀ n : Nat, ¬ InTemp m.toSys (Path.join p.outputDirectory (base ++ "_" ++ toString n ++ ".vy")))
    (hout : ∀ (n : Nat) t s, content (Path.join p.outputDirectory (base ++ "_" ++ toString n ++ ".vy")) (m.stdout t s) =
      content (Path.join p.outputDirectory (base ++ "_" ++ toString n ++ ".vy")) s)
    (hok : m.generate fuel p s = (.ok (), s'))
    (prog : Program) (hshow : ShowsProgram prog ast) (hpo : .integer ∈ p.mutations → prog.Ok)
    (hmut : Mutable R m.env p.mutations ast) :
    ∃ count ≤ p.numberOfMutants, ∀ k : Nat,
      (k < count → ∃ t ∈ p.mutations, ∃ mutator : Mutator R, Vyper.mutatorFor m.env t = some mutator ∧
        ∃ (pos : Pos) (node node' : Json) (rng rng' : R) (rep : MutatorResult) (comment : Option Json) (text : String),
          nodeAt pos (fileTree name ast) = some node ∧ mutator.isMutable node = true ∧
          (p.functions ≠ [] → insideListed vyperCtx p.functions pos (fileTree name ast) = true) ∧
          mutator.mutate node rng = .ok (node', rep, comment, rng') ∧
          content (Path.join p.outputDirectory (base ++ "_" ++ toString k ++ ".vy")) s' = some text ∧
          (Writable t node' → ∃ prog' prog'', InProgram (changeOf m.env.floatText t) prog prog' ∧
            (prog'' = prog' ∨ ∃ note, comment = some (Vyper.commentNode note) ∧ NewComment note prog' prog'') ∧
            (prog''.Ok → prog''.Shallow → text.toList = textProgram prog'' ∧ readProgram text.toList = some prog'.bare ∧
              readWhole text.toList = some prog''.noted))) ∧
      (count ≤ k → content (Path.join p.outputDirectory (base ++ "_" ++ toString k ++ ".vy")) s' =
        content (Path.join p.outputDirectory (base ++ "_" ++ toString k ++ ".vy")) s) := by
  obtain ⟨count, hcount, h⟩ := C68_vyper m hsh hc hw fuel p s s' base hb hs _ hr htmp hout hok
  refine ⟨count, hcount, fun k => ⟨fun hk => ?_, (h k).2⟩⟩
  obtain ⟨t, ht, mu, hmu, pos, node, node', rng, rng', rep, comment, mutant, text, h1, h2, h3, h4, h5, h6, h7⟩ := (h k).1 hk
  refine ⟨t, ht, mu, hmu, pos, node, node', rng, rng', rep, comment, text, h1, h2, h3, h4, h7, fun hwr => ?_⟩
  have hsub : ∀ u ∈ [t], u ∈ p.mutations := by simpa using ht
  have hmut1 : Mutable R m.env [t] ast := ⟨fun u hu => hmut.visible u (hsub u hu),
    fun u hu => hmut.functions u (hsub u hu), fun id hid =>
    ⟨(hmut.ids id hid).1, (hmut.ids id hid).2.1, (hmut.ids id hid).2.2.1, fun u hu => (hmut.ids id hid).2.2.2 u (hsub u hu)⟩⟩
  obtain ⟨prog', ast', h8, h9, h0, h10⟩ := C75_one_partial hmu hshow (fun e => hpo (e ▸ ht)) hmut1 h1 h2 h4 hwr
  rw [h0] at h5
  have key : ∀ prog'' ast'', mutant = fileTree name ast'' → ShowsProgram prog'' ast'' → prog''.bare = prog'.bare →
      prog''.Ok → prog''.Shallow → text.toList = textProgram prog'' ∧ readProgram text.toList = some prog'.bare ∧
        readWhole text.toList = some prog''.noted := by
    intro prog'' ast'' g0 g1 g2 g3 g4
    have e := printed (env := env) (C74_file env name ast'' ▸ printText_program g1 g3 g4)
    rw [← hprint, ← g0, h6] at e
    injection e with e
    rw [e, String.toList_ofList]
    exact ⟨rfl, by rw [program_read g3 g4, g2], program_readWhole g3 g4⟩
  rcases h5 with rfl | ⟨c, hc, hadd⟩
  · exact ⟨prog', prog', h8, .inl rfl, key prog' _ rfl h9 rfl⟩
  · obtain ⟨prog'', ast'', h13, h11, h12⟩ := h10 c mutant hc hadd
    refine ⟨prog', prog'', h8, h12.imp_right fun ⟨note, g1, g2⟩ => ⟨note, by rw [hc, g1], g2⟩, key prog'' ast'' h13 h11 ?_⟩
    rcases h12 with rfl | ⟨note, -, h12⟩
    · rfl
    · exact newComment_bare h12

/-! ### A run -/

/-- The ids in a tree. -/
def idsIn (j : Json) : List Nat := (preorder j).filterMap vyperId

/-- The nodes in the field `body`. -/
def bodyOf (j : Json) : List Json := (Vyper.arrayField "body" j).getD []

/-- The ids in the bodies of functions of interfaces. -/
def interfaceIds (j : Json) : List Nat :=
  (bodyOf j).flatMap fun d =>
    if d.getStrForKey "ast_type" = some "InterfaceDef" then
      (bodyOf d).flatMap fun f => (bodyOf f).flatMap idsIn
    else []

/-- Like a function of an interface. -/
def interfaceLike (j : Json) : Bool :=
  match bodyOf j with
  | [s] => Vyper.hasType "FunctionDef" j && Vyper.hasType "Expr" s && !((s.field? "value").any (Vyper.hasType "Call"))
  | _ => false

/-- `Mutable`, decided. -/
def isMutableTree (R : Type) [Rand R] (env : MutEnv) (types : List MutationType) (ast : Json) : Bool :=
  !(bodyOf ast).any (Vyper.hasType "Comment") && !(interfaceIds ast).contains 0 && !((ast :: bodyOf ast).filterMap vyperId).any (interfaceIds ast).contains && types.all fun t => match (Vyper.mutatorFor env t : Option (Mutator R)) with
    | none => true
    | some m => (positions ast).all fun p => match nodeAt p ast with
      | none => true
      | some n => !m.isMutable n || (visible p ast && !interfaceLike n && (p.isEmpty || (idsIn n).all fun i => !(interfaceIds ast).contains i))

theorem containsId_ids {id : Nat} {j : Json} (h : ContainsId vyperId id j) : id ∈ idsIn j := by
  obtain ⟨p, n, h1, h2⟩ := h
  exact List.mem_filterMap.2 ⟨n, mem_preorder_of_nodeAt h1, h2⟩

theorem leaf_not_call {t : String} {j : Json} (h : IsA "Call" j) : ¬ Shows (.leaf t) j := by
  intro hs
  simp only [Shows] at hs
  rcases hs with h1 | ⟨h1 | h1, _⟩ | h1 | h1 <;>
    first | exact absurd (isA_unique h h1.1) (by decide) | exact absurd (isA_unique h h1) (by decide)

theorem mutable_of_check {env : MutEnv} {types : List MutationType} {ast : Json} (h : isMutableTree R env types ast = true) :
    Mutable R env types ast := by
  simp only [isMutableTree, Bool.and_eq_true, Bool.not_eq_true', List.contains_eq_mem, decide_eq_false_iff_not,
    List.all_eq_true, List.any_eq_false, decide_eq_true_eq, List.mem_filterMap, List.mem_cons] at h
  have hb : ∀ {j : Json} {xs}, Json.field? "body" j = some (.arr xs) → bodyOf j = xs := by
    intro j xs hj
    simp [bodyOf, Vyper.arrayField, hj, Json.asArray]
  have hin : ∀ {id}, InInterface id ast → id ∈ interfaceIds ast := by
    rintro id ⟨bs, d0, d, fs, f, xs, x, h1, h2, h0, h3, h4, h5, h6, h7, h8⟩
    have hd : d0 = d := by
      cases h0 with
      | here => rfl
      | comment h9 => exact absurd (vyper_hasType.2 (kind_isA.2 h9)) (h.1.1.1 d0 (by rwa [hb h1]))
    subst hd
    refine List.mem_flatMap.2 ⟨_, by rwa [hb h1], ?_⟩
    rw [if_pos (show getStrForKey "ast_type" d0 = some "InterfaceDef" from h3)]
    exact List.mem_flatMap.2 ⟨f, by rwa [hb h4], List.mem_flatMap.2 ⟨x, by rwa [hb h6], containsId_ids h8⟩⟩
  have hall : ∀ t ∈ types, ∀ m : Mutator R, Vyper.mutatorFor env t = some m → ∀ pos node, nodeAt pos ast = some node →
      m.isMutable node = true → visible pos ast = true ∧ interfaceLike node = false ∧
        (pos ≠ [] → ∀ i ∈ idsIn node, i ∉ interfaceIds ast) := by
    intro t ht m hm pos node hn hmu
    have h1 := h.2 t ht
    simp only [hm, List.all_eq_true] at h1
    have h2 := h1 pos (mem_positions.2 (by rw [hn]; rfl))
    simp only [hn, hmu, Bool.not_true, Bool.false_or, Bool.and_eq_true, Bool.not_eq_true', Bool.or_eq_true, List.isEmpty_iff,
      List.all_eq_true, decide_eq_false_iff_not] at h2
    exact ⟨h2.1.1, h2.1.2, fun hne => h2.2.resolve_left hne⟩
  refine ⟨fun t ht m hm pos node hn hmu => (hall t ht m hm pos node hn hmu).1, fun t ht m hm pos node hn hmu f hf => ?_, fun id hid =>
    ⟨fun e => h.1.1.2 (e ▸ hin hid), fun e => h.1.2 id ⟨_, .inl rfl, e⟩ (hin hid), fun ds d hds hd e =>
      h.1.2 id ⟨d, .inr (by rwa [hb hds]), e⟩ (hin hid), fun t ht m hm pos node hn hne hmu hc =>
      (hall t ht m hm pos node hn hmu).2.2 hne id (containsId_ids hc) (hin hid)⟩⟩
  obtain ⟨g, mm⟩ := f
  simp only [ShowFunctions, and_true] at hf
  obtain ⟨hg, _, _, b, hbb, hbe, z, hz, hzm⟩ := hf
  have h1 := (hall t ht m hm pos node hn hmu).2.1
  have hcall : Vyper.hasType "Call" z = false := by
    cases hh : Vyper.hasType "Call" z with
    | false => rfl
    | true => exact absurd hzm (leaf_not_call (kind_isA.1 (vyper_hasType.1 hh)))
  simp [interfaceLike, hb hbb, vyper_hasType.2 (kind_isA.2 hg.1), vyper_hasType.2 (kind_isA.2 hbe), hz, hcall] at h1

theorem demo_shows {e : Expr} {j : Json} (h : Shows e j) : ShowsProgram (DemoVyper.program e) (DemoVyper.module_ j) := by
  have leaf : ∀ i t, Shows (.leaf t) (DemoVyper.name i t) := fun i t => .inl ⟨rfl, rfl⟩
  have sig : ∀ i n ds as bs ps, ShowPlain ps as → ShowsSig ⟨n, ps, [.leaf "uint256"]⟩ (DemoVyper.function i n ds as bs) := by
    intro i n ds as bs ps hp
    refine ⟨rfl, rfl, ⟨_, rfl, rfl, ps, [], as, [], (List.append_nil _).symm, hp, trivial, ?_, rfl⟩,
      .inr ⟨_, rfl, .inl ⟨_, rfl, leaf _ _⟩⟩⟩
    rw [List.map_nil, List.append_nil]
    rfl
  refine ⟨rfl, .inr rfl, _, rfl, ⟨rfl, rfl, _, rfl, ⟨sig _ _ _ _ _ _ trivial, rfl, .inr rfl, _, rfl, rfl, _, rfl, leaf _ _⟩, trivial⟩,
    ⟨sig _ _ _ _ _ _ ⟨⟨rfl, rfl, _, rfl, leaf _ _⟩, rfl, ⟨rfl, rfl, _, rfl, leaf _ _⟩, rfl, trivial⟩,
      ⟨_, rfl, leaf _ _, trivial⟩, .inr rfl, _, rfl, ⟨rfl, .inr ⟨_, rfl, .inl ⟨_, rfl, h⟩⟩⟩, trivial⟩, trivial⟩

namespace Demo
open DemoVyper

/-- `a * b` and `~a * b`. -/
def plain : Json := fileTree "x.vy" (module_ (product (name 21 "a") (name 22 "b")))
def tilde : Json := fileTree "x.vy" (module_ (product (inverted (name 21 "a")) (name 22 "b")))

theorem shows_product {e f : Expr} {a b : Json} (ha : Shows e a) (hb : Shows f b) :
    Shows (.bin e .mult f) (product a b) :=
  ⟨⟨_, rfl, rfl⟩, .inl rfl, ⟨_, rfl, ha⟩, _, rfl, hb⟩

theorem shows_inverted {e : Expr} {a : Json} (ha : Shows e a) : Shows (.inv e) (inverted a) :=
  ⟨rfl, ⟨_, rfl, rfl⟩, _, rfl, ha⟩

theorem shows_name (i : Nat) (t : String) : Shows (.leaf t) (name i t) := .inl ⟨rfl, rfl⟩

/-- Decide that a program of the example is printed as it is. -/
macro "demo_ok" : tactic => `(tactic| (
  refine ⟨fun t ht => (by cases ht), fun x hx => ?_⟩
  simp only [program, programOf, List.mem_cons, List.not_mem_nil, or_false] at hx
  rcases hx with hx | hx
  all_goals subst hx
  all_goals
    simp only [Decl.Ok, Simple.Ok, Stmt.Ok, OkAll, Sig.Ok, Param.Ok, Names, FineAll, FineOption, Fine, Plain, PlainAll,
      List.mem_cons, List.not_mem_nil, or_false, forall_eq_or_imp, forall_eq, Option.some.injEq, forall_eq', reduceCtorEq,
      false_imp_iff, implies_true, Option.toList]
  all_goals repeat' apply And.intro
  all_goals first
    | decide +kernel
    | simp; done
    | (simp; decide +kernel)
    | simp [bareAll, bare]))

theorem contents (j : Json) : Contents (machine j).toSys (fun f d => d.lookup f) where
  write f t s g h := DemoSystem.lookup_put f t g h s
  remove f s g h := DemoSystem.lookup_drop f g h s
  exec program args s g _ := by
    show List.lookup g (DemoVyper.exec program args s).2 = _
    unfold DemoVyper.exec
    split
    · split
      · rfl
      · split <;> rfl
    · rfl

theorem place_head (n : Nat) : ∃ rest, (Path.join "out" ("x.vy" ++ "_" ++ toString n ++ ".vy")).toList = 'o' :: rest := by
  have hb : Path.fileName "/in/x.vy" = some "x.vy" := by decide
  obtain ⟨h1, h2⟩ := mutantFile_ok (ToolProps.plainExt .vyper) (Path.fileName_spec hb).2 n
  have e : ("x.vy" ++ "_" ++ toString n ++ ".vy") = ("x.vy" ++ "_" ++ toString n ++ "." ++ Language.vyper.ext) := by
    rw [String.append_assoc (s₂ := ".")]; rfl
  rw [e, Path.join_toList _ _ h1 h2]
  exact ⟨_, rfl⟩

/-- The hypotheses of `C75_written_partial` about the machine are met for every run for the function that returns `a * b`. -/
theorem written (p : Params ListRand) (h1 : p.fileName = "/in/x.vy") (h2 : p.outputDirectory = "out") (h3 : p.useStdout = false)
    (hr : ((machine plain).reading p disk).1 = .ok (.vyper, plain)) (hok : ((machine plain).generate 100 p disk).1 = .ok ())
    (hint : MutationType.integer ∉ p.mutations)
    (hmut : Mutable ListRand (machine plain).env p.mutations (module_ (product (name 21 "a") (name 22 "b")))) :
    ∃ count ≤ p.numberOfMutants, ∀ k : Nat,
      (k < count → ∃ t ∈ p.mutations, ∃ node' text, ((machine plain).generate 100 p disk).2.lookup
          (Path.join "out" ("x.vy" ++ "_" ++ toString k ++ ".vy")) = some text ∧
        (Writable t node' → ∃ p1 p2, InProgram (changeOf (machine plain).env.floatText t) (program (.bin (.leaf "a") .mult (.leaf "b"))) p1 ∧
          (p2 = p1 ∨ ∃ note, NewComment note p1 p2) ∧ (p2.Ok → p2.Shallow → readProgram text.toList = some p1.bare))) ∧
      (count ≤ k → ((machine plain).generate 100 p disk).2.lookup
        (Path.join "out" ("x.vy" ++ "_" ++ toString k ++ ".vy")) = disk.lookup (Path.join "out" ("x.vy" ++ "_" ++ toString k ++ ".vy"))) := by
  have hgen : (machine plain).generate 100 p disk = (.ok (), ((machine plain).generate 100 p disk).2) := by
    have hpair : ∀ x : Outcome Unit × DemoSystem.Disk, x.1 = .ok () → x = (.ok (), x.2) := by rintro ⟨a, b⟩ rfl; rfl
    exact hpair _ hok
  generalize ((machine plain).generate 100 p disk).2 = s' at hgen ⊢
  obtain ⟨count, g1, g2⟩ := C75_written_partial (machine plain) (fun _ => .refl _) (contents plain)
    (fun f t s _ => by show (DemoSystem.put f t s).lookup f = some t; simp [DemoSystem.put]) ⟨true, fun _ => ""⟩ (fun _ => rfl) 100 p disk s' "x.vy"
    (by rw [h1]; decide) h3 "x.vy"
    (module_ (product (name 21 "a") (name 22 "b"))) hr
    (fun n hp => by
      rw [h2] at hp
      obtain ⟨rest, h⟩ := place_head n
      unfold InTemp at hp
      have hp : "/tmp".toList <+: (Path.join "out" ("x.vy" ++ "_" ++ toString n ++ ".vy")).toList := hp
      rw [h] at hp
      have := (List.cons_prefix_cons.1 (show '/' :: "tmp".toList <+: 'o' :: rest from hp)).1
      revert this; decide)
    (fun n t s => DemoSystem.lookup_put _ _ _ (fun e => by
      rw [h2] at e
      obtain ⟨rest, h⟩ := place_head n
      have e : Path.join "out" ("x.vy" ++ "_" ++ toString n ++ ".vy") = "stdout" := e
      rw [e] at h
      have h := (List.cons.inj (show 's' :: "tdout".toList = 'o' :: rest from h)).1
      revert h; decide) s)
    hgen _ (demo_shows (shows_product (shows_name _ _) (shows_name _ _))) (fun h => absurd h hint) hmut
  rw [h2] at g2
  refine ⟨count, g1, fun k => ⟨fun hk => ?_, (g2 k).2⟩⟩
  obtain ⟨t, ht, mu, -, pos, nd, nd', rng, rng', rep, comment, text, -, -, -, -, h8, h9⟩ := (g2 k).1 hk
  refine ⟨t, ht, nd', text, h8, fun hw => ?_⟩
  obtain ⟨p1, p2, k1, k2, k3⟩ := h9 hw
  exact ⟨p1, p2, k1, k2.imp_right fun ⟨note, _, g⟩ => ⟨note, g⟩, fun o1 o2 => (k3 o1 o2).2.1⟩

/-- The comment of the mutant. -/
def note : String := "ArithmeticBinaryOp Mutator: Changed 'a * b' to 'a + b'"

/-- Example: a run for the function that returns `a * b` meets the hypotheses of `C75_written_partial`; it writes the program
with `a + b` and a comment, which is printed as it is. -/
example :
    let prog := program (.bin (.leaf "a") .mult (.leaf "b"))
    let prog' := program (.bin (.leaf "a") .add (.leaf "b"))
    let prog'' := programOf [.comment note, .simple (.ret [.bin (.leaf "a") .add (.leaf "b")])]
    InProgram (changeOf (machine plain).env.floatText .arithmeticBinaryOp) prog prog' ∧ NewComment note prog' prog'' ∧
    prog''.Ok ∧ prog''.Shallow ∧
    ((machine plain).generate 100 params disk).2.lookup "out/x.vy_0.vy" = some (String.ofList (textProgram prog'')) ∧
    ∃ count ≤ 1, ∀ k : Nat,
      (k < count → ∃ text, ((machine plain).generate 100 params disk).2.lookup
          (Path.join "out" ("x.vy" ++ "_" ++ toString k ++ ".vy")) = some text ∧
        ∃ p1 p2, InProgram (changeOf (machine plain).env.floatText .arithmeticBinaryOp) prog p1 ∧
          (p2 = p1 ∨ ∃ note, NewComment note p1 p2) ∧ (p2.Ok → p2.Shallow → readProgram text.toList = some p1.bare)) ∧
      (count ≤ k → ((machine plain).generate 100 params disk).2.lookup
        (Path.join "out" ("x.vy" ++ "_" ++ toString k ++ ".vy")) = disk.lookup (Path.join "out" ("x.vy" ++ "_" ++ toString k ++ ".vy"))) := by
  refine ⟨.mk (pre := [_]) (.body (pre := []) (.simple (.ret (.mk (pre := []) (.here ⟨_, _, _, _, rfl, rfl, by decide,
      by decide, by decide⟩))))), .inside (.mk (pre := [_]) (.here ⟨_, _, _, [], _, rfl, rfl⟩)), by demo_ok,
      by unfold Program.Shallow; decide +kernel, by decide +kernel, ?_⟩
  obtain ⟨count, h1, h2⟩ := written params rfl rfl rfl (by decide +kernel) (by decide +kernel) (by decide)
    (mutable_of_check (by decide +kernel))
  refine ⟨count, h1, fun k => ⟨fun hk => ?_, (h2 k).2⟩⟩
  obtain ⟨t, ht, nd', text, h8, h9⟩ := (h2 k).1 hk
  have ht : t = .arithmeticBinaryOp := by simpa [params] using ht
  subst ht
  exact ⟨text, h8, h9 ⟨fun h => (by cases h), fun h => (by cases h)⟩⟩

/-- The comment about a deleted statement. -/
def noteDeleted : String := "DeleteStatement Mutator: commented out the following line."

/-- Example: a run with `DeleteStatement` for the same function meets the hypotheses too.  It writes the program with the result
commented out and another result added, and the mutated function can be written. -/
example :
    let p := { params with mutations := [.deleteStatement], rng := ⟨[0, 1, 0, 3]⟩ }
    let prog := program (.bin (.leaf "a") .mult (.leaf "b"))
    let prog' := programOf [.quote (.simple (.ret [.bin (.leaf "a") .mult (.leaf "b")])), .simple (.ret [.leaf "3"])]
    let prog'' := programOf [.comment noteDeleted, .quote (.simple (.ret [.bin (.leaf "a") .mult (.leaf "b")])),
      .simple (.ret [.leaf "3"])]
    InProgram (changeOf (machine plain).env.floatText .deleteStatement) prog prog' ∧ NewComment noteDeleted prog' prog'' ∧
    prog''.Ok ∧ prog''.Shallow ∧ prog'.bare.decls = (program (.leaf "3")).decls ∧
    ((machine plain).generate 100 p disk).2.lookup "out/x.vy_0.vy" = some (String.ofList (textProgram prog'')) ∧
    Mutable ListRand (machine plain).env p.mutations (module_ (product (name 21 "a") (name 22 "b"))) ∧
    ((machine plain).generate 100 p disk).1 = .ok () ∧
    ∃ old new, nodeAt [2, 1] (module_ (product (name 21 "a") (name 22 "b"))) = some old ∧
      (∃ more, Vyper.deleteStatementMutate (R := ListRand) (machine plain).env old ⟨[0, 3]⟩ = .ok (new, more)) ∧
      Writable .deleteStatement new := by
  refine ⟨.mk (pre := [_]) (.here (.inl ⟨_, _, _, _, _, rfl, rfl, [], _, [], _, rfl, rfl, .inr ⟨rfl, rfl, .inr ⟨_, rfl⟩⟩⟩)),
    .inside (.mk (pre := [_]) (.here ⟨_, _, _, [], _, rfl, rfl⟩)), by demo_ok,
    by unfold Program.Shallow; decide +kernel, rfl, by decide +kernel, mutable_of_check (by decide +kernel), by decide +kernel,
    _, function 8 "f" [name 11 "external"] [param 12 "a", param 14 "b"] [Vyper.commentNodeFromNode
      (DemoVyper.node "Return" 16 [("value", product (name 21 "a") (name 22 "b"))]), Vyper.returnNode (Vyper.integerConstantNode (machine plain).env 3)],
    rfl, ⟨_, rfl⟩, ?_⟩
  refine ⟨fun _ xs hx => ?_, fun h => (by cases h)⟩
  cases hx
  refine ⟨fun x hx => ?_, fun h => absurd (isA_unique h (show IsA "FunctionDef" _ from rfl)) (by decide)⟩
  simp only [List.mem_cons, List.not_mem_nil, or_false] at hx
  rcases hx with rfl | rfl
  · exact fun h => absurd (isA_unique h (show IsA "Comment" _ from rfl)) (by decide)
  · exact fun _ => ⟨.ret [.leaf "3"], rfl, .inr ⟨_, rfl, .inl ⟨_, rfl, .inr (.inr (.inl ⟨rfl, 3, rfl, rfl⟩))⟩⟩⟩

/-- **C75: counterexample.** In a run with `ArithmeticBinaryOp` the function that returns `~a * b` is mutated to one that
is written as `~a ** b`.  The mutated tree stands for `(~a) ** b`, but the text in the file is read as `~(a ** b)`. -/
theorem C75_power_counterexample :
    let p := { params with rng := ⟨[0, 5]⟩ }
    let before := program (.bin (.inv (.leaf "a")) .mult (.leaf "b"))
    let after := program (.bin (.inv (.leaf "a")) .pow (.leaf "b"))
    ∃ ast text, tilde = fileTree "x.vy" ast ∧ ShowsProgram before ast ∧ before.Ok ∧ before.Shallow ∧
      InProgram (changeOf (machine tilde).env.floatText .arithmeticBinaryOp) before after ∧
      Mutable ListRand (machine tilde).env p.mutations ast ∧
      ((machine tilde).generate 100 p disk).1 = .ok () ∧
      ((machine tilde).generate 100 p disk).2.lookup "out/x.vy_0.vy" = some text ∧
      (readProgram text.toList).bind result = some "(~(a**b))" ∧ result after = some "((~a)**b)" := by
  refine ⟨_, text "# ArithmeticBinaryOp Mutator: Changed '~a * b' to '~a ** b'\n    return ~a ** b", rfl,
    demo_shows (shows_product (shows_inverted (shows_name _ _)) (shows_name _ _)), ?_, ?_, ?_,
    mutable_of_check (by decide +kernel), by decide +kernel, by decide +kernel, by decide +kernel, by decide +kernel⟩
  · demo_ok
  · unfold Program.Shallow
    decide +kernel
  · exact .mk (pre := [_]) (.body (pre := []) (.simple (.ret (.mk (pre := []) (.here ⟨_, _, _, _, rfl, rfl, by decide,
      by decide, by decide⟩)))))

/-- `a * 0` -/
def zero : Json := fileTree "x.vy" (module_ (product (name 21 "a") (DemoVyper.node "Int" 22 [("value", .num (.int 0))])))

/-- Example: a run with `Integer` for the function that returns `a * 0` meets the hypotheses too, and writes `a * -1`. -/
example :
    let p := { params with mutations := [.integer], rng := ⟨[0, 1]⟩ }
    let prog := program (.bin (.leaf "a") .mult (.leaf "0"))
    let prog' := program (.bin (.leaf "a") .mult (.neg (.leaf "1")))
    ∃ ast, zero = fileTree "x.vy" ast ∧ ShowsProgram prog ast ∧ prog.Ok ∧ prog'.Ok ∧
      InProgram (changeOf (machine zero).env.floatText .integer) prog prog' ∧
      Mutable ListRand (machine zero).env p.mutations ast ∧
      ((machine zero).generate 100 p disk).1 = .ok () ∧
      ((machine zero).generate 100 p disk).2.lookup "out/x.vy_0.vy" =
        some (text "# Integer Mutator: changed '0' to '-1'\n    return a * -1") := by
  refine ⟨_, rfl, demo_shows (shows_product (shows_name _ _) (.inr (.inr (.inl ⟨rfl, 0, by decide +kernel, rfl⟩)))), ?_, ?_, ?_,
    mutable_of_check (by decide +kernel), by decide +kernel, by decide +kernel⟩
  · demo_ok
  · demo_ok
  · exact .mk (pre := [_]) (.body (pre := []) (.simple (.ret (.mk (pre := []) (.right (.here ⟨0, -1, rfl, rfl⟩))))))

/-- A module with one function. -/
def lone : Json := fileTree "x.vy" (DemoVyper.node "Module" 1 [("body", .arr [
  function 8 "f" [name 11 "external"] [param 12 "a"] [DemoVyper.node "Return" 16 [("value", name 17 "a")]]]), ("doc_string", .null)])

/-- **C75: counterexample.** When the only declaration of a module is deleted, a `pass` is written in its place, which Vyper does
not accept outside of functions. -/
theorem C75_module_counterexample :
    let p := { params with mutations := [.deleteStatement], rng := ⟨[0, 0, 0]⟩ }
    let before : Program := ⟨none, [.fn [.leaf "external"] ⟨"f", [⟨"a", .leaf "uint256", none⟩], [.leaf "uint256"]⟩ none
      [.simple (.ret [.leaf "a"])]]⟩
    ∃ ast text, lone = fileTree "x.vy" ast ∧ ShowsProgram before ast ∧ before.decls.all Decl.accepted = true ∧
      Mutable ListRand (machine lone).env p.mutations ast ∧
      ((machine lone).generate 100 p disk).1 = .ok () ∧
      ((machine lone).generate 100 p disk).2.lookup "out/x.vy_0.vy" = some text ∧
      (readProgram text.toList).map (fun q => q.decls.all Decl.accepted) = some false := by
  have leaf : ∀ i t, Shows (.leaf t) (DemoVyper.name i t) := fun i t => .inl ⟨rfl, rfl⟩
  have sig : ∀ i n ds as bs ps, ShowPlain ps as → ShowsSig ⟨n, ps, [.leaf "uint256"]⟩ (DemoVyper.function i n ds as bs) := by
    intro i n ds as bs ps hp
    refine ⟨rfl, rfl, ⟨_, rfl, rfl, ps, [], as, [], (List.append_nil _).symm, hp, trivial, ?_, rfl⟩,
      .inr ⟨_, rfl, .inl ⟨_, rfl, leaf _ _⟩⟩⟩
    rw [List.map_nil, List.append_nil]
    rfl
  refine ⟨_, "# DeleteStatement Mutator: commented out the following line.\n\n# @external def f(a: uint256) -> uint256: return a\n\npass\n\n",
    rfl, ⟨rfl, .inr rfl, _, rfl, ⟨sig _ _ _ _ _ _ ⟨⟨rfl, rfl, _, rfl, leaf _ _⟩, rfl, trivial⟩,
      ⟨_, rfl, leaf _ _, trivial⟩, .inr rfl, _, rfl, ⟨rfl, .inr ⟨_, rfl, .inl ⟨_, rfl, leaf _ _⟩⟩⟩, trivial⟩, trivial⟩,
    by decide +kernel, mutable_of_check (by decide +kernel), by decide +kernel, by decide +kernel, by decide +kernel⟩

end Demo

end VyPrint
end Mutagenyx
