import Verif.Proofs.Console
import Verif.Proofs.ListedExact
import Verif.Proofs.Repro
import Verif.Props.Languages
import Verif.Props.OutputNames

/-!
# What the tool says

C79: the messages of a run are true.  C80: what is on standard output.  C81: how failures show.
-/

namespace Mutagenyx
open Json

variable {S R : Type}

/-- A place that the algorithm may change in a run. -/
def MayChange [Rand R] (lang : Language) (env : MutEnv) (algorithms : List MutationType) (functions : List String) (ast : Json)
    (t : MutationType) (pos : Pos) : Prop :=
  t ∈ algorithms ∧ ∃ mutator : Mutator R, languageMutator env lang t = some mutator ∧
    ∃ node, nodeAt pos ast = some node ∧ mutator.isMutable node = true ∧
      (functions ≠ [] → ListedSoFar lang.ctx functions pos ast)

/-- The file of mutant number `n`. -/
def mutantFileName (lang : Language) (dir base : String) (n : Nat) : String :=
  Path.join dir (base ++ "_" ++ toString n ++ "." ++ suffixOf lang)

namespace Console

theorem last_component : ∀ (cs : List Char) (c : Char), cs.getLast? = some c → c ≠ '/' →
    ∃ pre l, Json.splitSlash cs = pre ++ [l] ∧ l.getLast? = some c
  | [], c, h, _ => by cases h
  | [x], c, h, hc => by
    have h : x = c := Option.some.inj h
    subst h
    exact ⟨[], [x], by simp [Json.splitSlash, hc], rfl⟩
  | x :: y :: ys, c, h, hc => by
    obtain ⟨pre, l, h1, h2⟩ := last_component (y :: ys) c (by simpa using h) hc
    rw [Json.splitSlash, h1]
    split
    · exact ⟨[] :: pre, l, rfl, h2⟩
    · cases pre with
      | nil =>
        refine ⟨[], x :: l, rfl, ?_⟩
        cases l with
        | nil => cases h2
        | cons a l => simpa using h2
      | cons a pre => exact ⟨(x :: a) :: pre, l, rfl, h2⟩

theorem fileName_last {p b : String} (h : Path.fileName p = some b) {c : Char} (hl : p.toList.getLast? = some c) (h1 : c ≠ '/')
    (h2 : c ≠ '.') : b.toList.getLast? = some c := by
  obtain ⟨pre, l, e1, e2⟩ := last_component _ _ hl h1
  unfold Path.fileName at h
  rw [e1, List.reverse_append] at h
  have hne : ¬ (l = [] ∨ l = ['.']) := by
    rintro (rfl | rfl)
    · cases e2
    · cases e2; exact h2 rfl
  simp only [List.reverse_cons, List.reverse_nil, List.nil_append, List.cons_append, Path.lastNormal, if_neg hne] at h
  split at h
  · cases h
  · cases h
    simpa using e2

/-- The name of the printed original ends as the language wants. -/
theorem original_last (lang : Language) {fileName base : String} (hb : Path.fileName fileName = some base) :
    (base ++ if Path.endsWith fileName ("." ++ lang.ext) then "" else "." ++ lang.ext).toList.getLast? = lang.ext.toList.getLast? := by
  have hne : lang.ext.toList ≠ [] := by cases lang <;> decide
  split
  · rename_i he
    obtain ⟨l, hl⟩ := List.isSuffixOf_iff_suffix.1 he
    have h1 : fileName.toList.getLast? = lang.ext.toList.getLast? := by
      rw [← hl, String.toList_append, ← List.append_assoc, getLast?_append_ne _ hne]
    have h2 : ∃ c, lang.ext.toList.getLast? = some c ∧ c ≠ '/' ∧ c ≠ '.' := by
      cases lang
      · exact ⟨'l', by decide⟩
      · exact ⟨'y', by decide⟩
    obtain ⟨c, h3, h4, h5⟩ := h2
    rw [String.append_empty, h3]
    exact fileName_last hb (h1.trans h3) h4 h5
  · rw [String.toList_append, String.toList_append, ← List.append_assoc, getLast?_append_ne _ hne]

theorem before_dot : ∀ (l a b : List Char), Path.splitLastDot l = some (a, b) → ∀ c ∈ a, c ∈ l := by
  intro l
  induction l with
  | nil => intro a b h; cases h
  | cons x l ih =>
    intro a b h c hc
    simp only [Path.splitLastDot] at h
    split at h
    · rename_i a' b' he
      cases h
      rcases List.mem_cons.1 hc with rfl | hc
      · simp
      · exact List.mem_cons_of_mem _ (ih _ _ he c hc)
    · split at h
      · cases h; simp at hc
      · cases h

theorem original_ne_config (lang : Language) {fileName base dir : String} (hb : Path.fileName fileName = some base) :
    printTarget lang.ext fileName dir ≠ configTarget fileName dir := by
  obtain ⟨hb0, hbs⟩ := Path.fileName_spec hb
  have hlast := original_last lang hb
  intro h
  unfold printTarget configTarget at h
  rw [hb] at h
  simp only [Option.some.injEq] at h
  have hn := Path.join_inj (by simp [hb0]) ?_ (by simp) ?_ h
  · rw [hn, String.toList_append, getLast?_append_ne _ (by decide)] at hlast
    revert hlast
    cases lang <;> decide
  · intro c hc
    rw [String.toList_append, List.mem_append] at hc
    rcases hc with hc | hc
    · exact hbs c hc
    · revert c
      cases lang <;> split <;> decide
  · intro c hc
    rw [String.toList_append, List.mem_append] at hc
    rcases hc with hc | hc
    · refine hbs c ?_
      unfold stripExtension at hc
      split at hc
      · rename_i a b he
        rw [String.toList_ofList] at hc
        exact before_dot _ _ _ he c hc
      · exact hc
    · revert c; decide

theorem config_no_slash {fileName base : String} (hb : Path.fileName fileName = some base) :
    '/' ∉ (stripExtension base ++ ".mgnx").toList := by
  intro hc
  rw [String.toList_append, List.mem_append] at hc
  rcases hc with hc | hc
  · refine (Path.fileName_spec hb).2 '/' ?_ rfl
    unfold stripExtension at hc
    split at hc
    · rename_i a b he
      rw [String.toList_ofList] at hc
      exact before_dot _ _ _ he _ hc
    · exact hc
  · revert hc; decide

theorem original_no_slash (lang : Language) {fileName base : String} (hb : Path.fileName fileName = some base) :
    '/' ∉ (base ++ if Path.endsWith fileName ("." ++ lang.ext) then "" else "." ++ lang.ext).toList := by
  intro hc
  rw [String.toList_append, List.mem_append] at hc
  rcases hc with hc | hc
  · exact (Path.fileName_spec hb).2 _ hc rfl
  · revert hc
    cases lang <;> split <;> decide

variable [Rand R]
open Tells (mutatorsOf tableOf)

/-- The places that an algorithm may change in a run. -/
def placesOf (m : Machine S R) (p : Params R) (lang : Language) (ast : Json) (t : MutationType) : List Pos :=
  match (mutatorsOf m p lang).find? (·.implements = t) with
  | some mutator => (cand lang.ctx (functionPermissions p.functions) mutator.isMutable ast false).1
  | none => []

theorem placesOf_sublist (m : Machine S R) (p : Params R) (lang : Language) (ast : Json) (t : MutationType) :
    (placesOf m p lang ast t).Sublist (positions ast) := by
  unfold placesOf
  split
  · exact cand_sublist _ _ _ _ _
  · exact List.nil_sublist _

theorem mutatorsOf_nodup (m : Machine S R) (hsh : ∀ l, (m.shuffle l).Perm l) (p : Params R) (lang : Language) :
    ((mutatorsOf m p lang).map (·.implements)).Nodup :=
  ((hsh _).map _).nodup_iff.2 (selectMutators_nodup _ _)

theorem find_mutator (m : Machine S R) (hsh : ∀ l, (m.shuffle l).Perm l) (p : Params R) (lang : Language) (t : MutationType)
    (mutator : Mutator R) :
    (mutatorsOf m p lang).find? (·.implements = t) = some mutator ↔ t ∈ p.mutations ∧ languageMutator m.env lang t = some mutator := by
  obtain ⟨h1, h2, h3⟩ := C27_one_mutator_per_supported_algorithm m.env (lang.delegate m.env : Lang R) lang (by cases lang <;> rfl)
    p.mutations
  constructor
  · intro h
    have hm : mutator ∈ selectMutators (lang.delegate m.env) p.mutations := (hsh _).mem_iff.1 (List.mem_of_find?_eq_some h)
    have ht : mutator.implements = t := by simpa using List.find?_some h
    obtain ⟨a, -, b⟩ := h2 mutator hm
    rw [ht] at a b
    exact ⟨a, b⟩
  · rintro ⟨ht, hm⟩
    obtain ⟨m', e1, e2⟩ := h1 t ht ((mutatorFor_supports m.env lang t).1 ⟨mutator, hm⟩)
    rw [hm] at e1
    cases e1
    have hp : ((mutatorsOf m p lang).filter (·.implements = t)).Perm [mutator] := by rw [← e2]; exact (hsh _).filter _
    have hp := List.perm_singleton.1 hp
    rw [← List.head?_filter, hp]
    rfl

theorem mem_placesOf (m : Machine S R) (hsh : ∀ l, (m.shuffle l).Perm l) (p : Params R) (lang : Language) (ast : Json)
    (t : MutationType) (pos : Pos) :
    pos ∈ placesOf m p lang ast t ↔ MayChange (R := R) lang m.env p.mutations p.functions ast t pos := by
  unfold placesOf MayChange
  cases hf : (mutatorsOf m p lang).find? (·.implements = t) with
  | none =>
    simp only [List.not_mem_nil, false_iff]
    rintro ⟨ht, mutator, hm, -⟩
    have := (find_mutator m hsh p lang t mutator).2 ⟨ht, hm⟩
    rw [hf] at this
    cases this
  | some mutator =>
    obtain ⟨ht, hm⟩ := (find_mutator m hsh p lang t mutator).1 hf
    simp only
    by_cases hne : p.functions = []
    · rw [hne, cand_all_aux]
      unfold positionsWhere
      simp only [List.mem_filter, Bool.true_and, mem_positions]
      constructor
      · rintro ⟨-, h⟩
        cases hn : nodeAt pos ast with
        | none => rw [hn] at h; cases h
        | some n => rw [hn] at h; exact ⟨ht, mutator, hm, n, rfl, h, by simp⟩
      · rintro ⟨-, m', hm', n, h1, h2, -⟩
        rw [hm] at hm'; cases hm'
        rw [h1]
        exact ⟨rfl, h2⟩
    · rw [cand_exact lang.ctx hne]
      constructor
      · rintro ⟨n, h1, h2, h3⟩
        exact ⟨ht, mutator, hm, n, h1, h2, fun _ => h3⟩
      · rintro ⟨-, m', hm', n, h1, h2, h3⟩
        rw [hm] at hm'; cases hm'
        exact ⟨n, h1, h2, h3 hne⟩

theorem tableOf_get (m : Machine S R) (hsh : ∀ l, (m.shuffle l).Perm l) (p : Params R) (lang : Language) (ast : Json)
    (t : MutationType) : (tableOf m p lang ast).get? t = entry (placesOf m p lang ast t).length := by
  unfold placesOf tableOf entry
  cases hf : (mutatorsOf m p lang).find? (·.implements = t) with
  | none =>
    rw [countTable_none _ _ _ _ t fun mu hmu => by simpa using List.find?_eq_none.1 hf mu hmu]
    rfl
  | some mutator =>
    have ht : mutator.implements = t := by simpa using List.find?_some hf
    rw [← ht]
    exact get?_countMutableNodes _ _ _ (mutatorsOf_nodup m hsh p lang) mutator (List.mem_of_find?_eq_some hf) ast

theorem mem_usable (m : Machine S R) (hsh : ∀ l, (m.shuffle l).Perm l) (p : Params R) (lang : Language) (ast : Json)
    (t : MutationType) : t ∈ usableTypes (tableOf m p lang ast) ↔ placesOf m p lang ast t ≠ [] := by
  have hn : ((tableOf m p lang ast).map Prod.fst).Nodup := countTable_keys_nodup _ _ _ _
  have hg := tableOf_get m hsh p lang ast t
  rw [mem_usableTypes]
  constructor
  · rintro ⟨n, h0, h1⟩ he
    rw [get?_of_mem hn h1, he] at hg
    cases hg
  · intro hne
    have hl : (placesOf m p lang ast t).length ≠ 0 := by simpa using hne
    unfold entry at hg
    rw [if_neg hl] at hg
    exact ⟨_, by omega, mem_of_get? hg⟩

theorem sum_places (m : Machine S R) (hsh : ∀ l, (m.shuffle l).Perm l) (p : Params R) (lang : Language) (ast : Json) :
    ((tableOf m p lang ast).map Prod.snd).sum =
      ((usableTypes (tableOf m p lang ast)).map fun t => (placesOf m p lang ast t).length).sum := by
  have hn : ((tableOf m p lang ast).map Prod.fst).Nodup := countTable_keys_nodup _ _ _ _
  rw [← available_eq hn]
  congr 1
  refine List.map_congr_left fun t _ => ?_
  unfold tableCount
  rw [tableOf_get m hsh p lang ast t]
  unfold entry
  split
  · rename_i h; rw [h]; rfl
  · rfl

theorem usable_sorted (m : Machine S R) (p : Params R) (lang : Language) (ast : Json) :
    (usableTypes (tableOf m p lang ast)).Pairwise (fun x y => MutationType.rank x < MutationType.rank y) := by
  unfold usableTypes
  apply MutationType.sortBy_sorted MutationType.rank (fun _ _ _ => Nat.lt_trans)
  · intro x y hn
    rcases Nat.lt_trichotomy (MutationType.rank x) (MutationType.rank y) with h | h | h
    · exact absurd h hn
    · exact Or.inr (MutationType.rank_inj x y h)
    · exact Or.inl h
  · exact (List.Sublist.map Prod.fst (List.filter_sublist)).nodup (countTable_keys_nodup _ _ _ _)

theorem made_one (m : Machine S R) (hsh : ∀ l, (m.shuffle l).Perm l) (p : Params R) (lang : Language) (ast : Json)
    {t : MutationType} {mutant : Json} {text : String}
    (h : Tells.MadeBy m (Tells.jobOf m p lang ast) t mutant text) :
    (∃ report, OneMutation (R := R) lang m.env [t] p.functions ast mutant report) ∧ t ∈ p.mutations ∧
      m.print lang mutant = .ok text := by
  obtain ⟨n, index, rng, rng', res, h1, h2, h3, h4⟩ := h
  obtain ⟨h5, h6⟩ := Results.mutateAst_by lang m.env p.mutations p.functions (mutatorsOf m p lang)
    (fun x hx => (hsh _).mem_iff.1 hx) (mutatorsOf_nodup m hsh p lang) ast mutant t index n rng rng' res h1 h2 h3
  exact ⟨⟨res, h6⟩, h5, h4⟩

theorem scheduled_le (m : Machine S R) (hsh : ∀ l, (m.shuffle l).Perm l) (p : Params R) (lang : Language) (ast : Json)
    {fuel : Nat} {todo : List MutationType} {rng : R}
    (h3 : selectAlgorithms fuel (tableOf m p lang ast) p.numberOfMutants p.rng = .ok (todo, rng)) {l : List MutationType}
    (h4 : l.Sublist todo) (t : MutationType) : l.count t ≤ (placesOf m p lang ast t).length := by
  refine Nat.le_trans (h4.count_le t) ?_
  rcases select_spec (table := tableOf m p lang ast) (countTable_keys_nodup _ _ _ _) fuel p.numberOfMutants p.rng with
    ⟨todo', r', w1, w2, w3, -⟩ | w
  · rw [h3] at w1
    cases w1
    by_cases ht : t ∈ usableTypes (tableOf m p lang ast)
    · have := w3 t ht
      unfold tableCount at this
      rw [tableOf_get m hsh p lang ast t] at this
      unfold entry at this
      split at this
      · simpa using Nat.le_trans this (Nat.zero_le _)
      · exact this
    · rw [List.count_eq_zero_of_not_mem (fun h => ht (w2 t h))]
      exact Nat.zero_le _
  · rw [h3] at w
    cases w

end Console

/-- Files in the directory are neither temporary files nor standard output. -/
def OutputApart (m : Machine S R) (content : String → S → Option String) (dir : String) : Prop :=
  ∀ name, name.toList ≠ [] → '/' ∉ name.toList → ¬ InTemp m.toSys (Path.join dir name) ∧
    ∀ t s, content (Path.join dir name) (m.stdout t s) = content (Path.join dir name) s

variable [Rand R]

open Console Tells in
/-- **C79.** What the tool says in a run to files that ends well is true.  If the original or the configuration was asked for, it
says so, and the file holds it.  It names, in the order of the table of algorithms, exactly the requested algorithms that have a
place to change, and the number of these places; if that is less than the number of requested mutants it says by how much.  For
each mutant it names the algorithm and the file, in the order of the numbers: the algorithm was requested, the mutant is the
input with one node mutated by that algorithm, and the file holds the text of the mutant.  No algorithm is named for more mutants
than it has places. -/
theorem C79_report (m : Machine S R) (hsh : ∀ l, (m.shuffle l).Perm l) {content : String → S → Option String}
    (hc : Contents m.toSys content) (hw : ∀ f t s, (m.write f t s).1 = true → content f (m.write f t s).2 = some t)
    (fuel : Nat) (p : Params R) (s s' : S) (base : String)
    (hb : Path.fileName p.fileName = some base) (hs : p.useStdout = false) (lang : Language) (ast : Json)
    (hr : (m.reading p s).1 = .ok (lang, ast)) (hdir : OutputApart m content p.outputDirectory)
    (hok : m.generate fuel p s = (.ok (), s')) (before : List Line) :
    ∃ (places : MutationType → List Pos) (algorithms : List MutationType) (total : Nat) (originalFile configFile : String)
      (made : List (MutationType × Json × String)),
      (∀ t, (places t).Sublist (positions ast) ∧
        ∀ pos, pos ∈ places t ↔ MayChange (R := R) lang m.env p.mutations p.functions ast t pos) ∧
      algorithms.Pairwise (fun a b => a.rank < b.rank) ∧ (∀ t, t ∈ algorithms ↔ places t ≠ []) ∧
      total = (algorithms.map fun t => (places t).length).sum ∧
      m.generateSaid fuel p (s, before) = (.ok (), s', before ++
        ((if p.printOriginal then [.original base p.outputDirectory] else []) ++
        ((if p.saveConfig then [.config configFile] else []) ++
        ([.nodesFor algorithms, .atMost total] ++
          (if total < p.numberOfMutants then [.lowering (p.numberOfMutants - total) total] else []) ++
        made.zipIdx.map fun e => .mutant e.1.1 (mutantFileName lang p.outputDirectory base e.2))))) ∧
      (p.printOriginal = true → printTarget (suffixOf lang) p.fileName p.outputDirectory = some originalFile ∧
        ∃ text, m.print lang ast = .ok text ∧ content originalFile s' = some text) ∧
      (p.saveConfig = true → configTarget p.fileName p.outputDirectory = some configFile ∧
        content configFile s' = some (m.configText (savedConfig defaultCompiler lang p))) ∧
      (∀ t, (made.map (·.1)).count t ≤ (places t).length) ∧ made.length ≤ p.numberOfMutants ∧
      ∀ (k : Nat) t mutant text, made[k]? = some (t, mutant, text) →
        t ∈ p.mutations ∧ (∃ report, OneMutation (R := R) lang m.env [t] p.functions ast mutant report) ∧
        m.print lang mutant = .ok text ∧ content (mutantFileName lang p.outputDirectory base k) s' = some text := by
  have hx : suffixOf lang = lang.ext := by cases lang <;> rfl
  have hfile : ∀ n, mutantTarget lang.ext p.fileName p.outputDirectory n = some (mutantFileName lang p.outputDirectory base n) := by
    intro n
    unfold mutantFileName
    rw [hx]
    exact mutantTarget_eq (ToolProps.plainExt lang) hb n
  have hok' : ∀ n, ¬ InTemp m.toSys (mutantFileName lang p.outputDirectory base n) ∧
      ∀ t s, content (mutantFileName lang p.outputDirectory base n) (m.stdout t s) =
        content (mutantFileName lang p.outputDirectory base n) s := by
    intro n
    obtain ⟨h1, h2⟩ := mutantFile_ok (ToolProps.plainExt lang) (Path.fileName_spec hb).2 n
    unfold mutantFileName
    rw [hx]
    exact hdir _ h1 fun h => h2 _ h rfl
  have hg := generateFrom m fuel p lang ast (QT := fun todo _ s' ls =>
      ∃ made : List (MutationType × Json × String), (made.map (·.1)).Sublist todo ∧
        (∀ e ∈ made, MadeBy m (jobOf m p lang ast) e.1 e.2.1 e.2.2) ∧
        SaidMutants content (jobOf m p lang ast) (mutantFileName lang p.outputDirectory base) 0 made s' ls) (fun todo rng n =>
    Tells.mono (turns m hc hw (jobOf m p lang ast) (mutantFileName lang p.outputDirectory base) (fun _ => hfile)
    (fun _ a b h => (C07_distinct lang.ext p.fileName p.outputDirectory base (ToolProps.plainExt lang) hb a b).1
      (by rw [hfile, hfile, h]))
    (fun _ n => (hok' n).1) (fun _ n => (hok' n).2) n { todo := todo, rng := rng }) fun _ _ _ _ _ h => h.2)
  rw [generate_eq] at hok
  rcases hrd : m.reading p s with ⟨o, s0⟩
  rw [hrd] at hr
  cases hr
  rw [Act.bind_of_ok hrd] at hok
  have hrd' : m.told.reading p (s, before) = (.ok (lang, ast), s0, before) := by rw [Mute.reading m p s before, hrd]
  obtain ⟨ls, e1, e2⟩ := hg s0 before
  obtain ⟨s1, s2, l1, l2, l4, todo, rng, h1, h2, h3, h5, ⟨made, h4, h6, h7⟩, h8⟩ := e2 () s' hok
  simp only at hok e1
  rw [hok] at e1
  have hturns : ∀ f, ¬ InTemp m.toSys f → (∀ t s, content f (m.stdout t s) = content f s) →
      (∀ n, mutantTarget lang.ext p.fileName p.outputDirectory n ≠ some f) → content f s' = content f s2 := by
    intro f q1 q2 q3
    have := ToolProps.keeps_turns m hc q1 q2 (jobOf m p lang ast) (fun _ => q3) (51 * todo.length + 1)
      { todo := todo, rng := rng } s2
    rw [h5] at this
    exact this
  have hsel := select_spec (table := tableOf m p lang ast) (countTable_keys_nodup _ _ _ _) fuel p.numberOfMutants p.rng
  have hcfg : configTarget p.fileName p.outputDirectory = some (Path.join p.outputDirectory (stripExtension base ++ ".mgnx")) := by
    unfold configTarget; rw [hb]
  have horg : printTarget lang.ext p.fileName p.outputDirectory = some (Path.join p.outputDirectory
      (base ++ if Path.endsWith p.fileName ("." ++ lang.ext) then "" else "." ++ lang.ext)) := by
    unfold printTarget; rw [hb]
  have hcd := hdir (stripExtension base ++ ".mgnx") (by simp) (config_no_slash hb)
  have hod := hdir _ (by simp [(Path.fileName_spec hb).1]) (original_no_slash lang hb)
  refine ⟨placesOf m p lang ast, usableTypes (tableOf m p lang ast), _, Path.join p.outputDirectory
      (base ++ if Path.endsWith p.fileName ("." ++ lang.ext) then "" else "." ++ lang.ext), _, made,
    fun t => ⟨placesOf_sublist m p lang ast t, mem_placesOf m hsh p lang ast t⟩, usable_sorted m p lang ast,
    mem_usable m hsh p lang ast, rfl, ?_, fun hp => ⟨by rw [hx]; exact horg, ?_⟩, fun hp => ⟨hcfg, ?_⟩, ?_, ?_, ?_⟩
  · rw [generateSaid_eq, Act.bind_of_ok hrd', e1, h8]
    have e1 : l1 = if p.printOriginal then [.original base p.outputDirectory] else [] := by
      cases hp : p.printOriginal with
      | false => exact (h1.1 hp).1
      | true =>
        obtain ⟨name, f, q1, q2, -⟩ := h1.2.2 hp hs
        rw [hb] at q1; cases q1
        exact q2
    have e2 : l2 = if p.saveConfig then [.config (Path.join p.outputDirectory (stripExtension base ++ ".mgnx"))] else [] := by
      cases hp : p.saveConfig with
      | false => exact (h2.1 hp).1
      | true =>
        obtain ⟨f, q1, q2, -⟩ := h2.2.2 hp hs
        rw [hcfg] at q1; cases q1
        exact q2
    rw [e1, e2, (h7.2 hs).1, ← sum_places m hsh p lang ast]
    unfold selectionLines
    rfl
  · obtain ⟨name, f, q1, q2, q3, q4⟩ := h1.2.2 hp hs
    obtain ⟨text, q5, q6⟩ := putOut_writes m (W := fun f t s => content f s = some t) hw lang f _ _ _ q4
    refine ⟨text, q5, ?_⟩
    rw [horg] at q3
    cases q3
    rw [hturns _ hod.1 hod.2 (fun n e =>
      (C07_distinct lang.ext p.fileName p.outputDirectory base (ToolProps.plainExt lang) hb n n).2.1 (e.trans horg.symm))]
    rw [← q6]
    cases hsc : p.saveConfig with
    | false => rw [(h2.1 hsc).2]
    | true =>
      obtain ⟨f', w1, -, w2⟩ := h2.2.2 hsc hs
      have hne : f' ≠ Path.join p.outputDirectory (base ++ if Path.endsWith p.fileName ("." ++ lang.ext) then "" else "." ++ lang.ext) := by
        intro e
        rw [e] at w1
        exact original_ne_config lang hb (horg.trans w1.symm)
      have := ToolProps.keeps_putOut m hc hod.2 lang (some f') (fun e => hne (Option.some.inj e))
        (.config (savedConfig defaultCompiler lang p)) s1
      rw [w2] at this
      exact this
  · obtain ⟨f, q1, -, q2⟩ := h2.2.2 hp hs
    rw [hcfg] at q1
    cases q1
    obtain ⟨text, q5, q6⟩ := putOut_writes m (W := fun f t s => content f s = some t) hw lang _ _ _ _ q2
    cases q5
    rw [hturns _ hcd.1 hcd.2 (fun n e =>
      (C07_distinct lang.ext p.fileName p.outputDirectory base (ToolProps.plainExt lang) hb n n).2.2 (by cases lang <;> decide)
        (e.trans hcfg.symm))]
    exact q6
  · exact scheduled_le m hsh p lang ast h3 h4
  · have hl := h4.length_le
    rw [List.length_map] at hl
    rcases hsel with ⟨todo', r', w1, -, -, w2⟩ | w
    · rw [h3] at w1
      cases w1
      omega
    · rw [h3] at w
      cases w
  · intro k t mutant text he
    obtain ⟨w1, w2, w3⟩ := made_one m hsh p lang ast (h6 _ (List.mem_of_getElem? he))
    refine ⟨w2, w1, w3, ?_⟩
    have := (h7.2 hs).2 k _ he
    rwa [Nat.zero_add] at this

open Console Tells in
/-- **C80, what there is.** In a run to standard output that ends well there are on standard output, in this order: the text of
the original and of the configuration if asked for, a line that names the algorithms with places to change, a line with the number
of places, perhaps a line about fewer mutants, and the texts of the mutants, each the input with one node mutated.  Missing: the
claim that there is nothing but texts, which fails (`C80_messages_counterexample`). -/
theorem C80_layout_partial (m : Machine S R) (hsh : ∀ l, (m.shuffle l).Perm l) (fuel : Nat) (p : Params R) (s s' : S)
    (hs : p.useStdout = true) (lang : Language) (ast : Json) (hr : (m.reading p s).1 = .ok (lang, ast))
    (hok : m.generate fuel p s = (.ok (), s')) (before : List Line) :
    ∃ (places : MutationType → List Pos) (algorithms : List MutationType) (total : Nat) (original : String)
      (made : List (MutationType × Json × String)),
      (∀ t, (places t).Sublist (positions ast) ∧
        ∀ pos, pos ∈ places t ↔ MayChange (R := R) lang m.env p.mutations p.functions ast t pos) ∧
      algorithms.Pairwise (fun a b => a.rank < b.rank) ∧ (∀ t, t ∈ algorithms ↔ places t ≠ []) ∧
      total = (algorithms.map fun t => (places t).length).sum ∧
      m.generateSaid fuel p (s, before) = (.ok (), s', before ++
        ((if p.printOriginal then [.text original] else []) ++
        ((if p.saveConfig then [.text (m.configText (savedConfig defaultCompiler lang p))] else []) ++
        ([.nodesFor algorithms, .atMost total] ++
          (if total < p.numberOfMutants then [.lowering (p.numberOfMutants - total) total] else []) ++
        made.map fun e => .text e.2.2)))) ∧
      (p.printOriginal = true → m.print lang ast = .ok original) ∧
      (∀ t, (made.map (·.1)).count t ≤ (places t).length) ∧ made.length ≤ p.numberOfMutants ∧
      ∀ t mutant text, (t, mutant, text) ∈ made →
        t ∈ p.mutations ∧ (∃ report, OneMutation (R := R) lang m.env [t] p.functions ast mutant report) ∧
        m.print lang mutant = .ok text := by
  have hg := generateFrom m fuel p lang ast (QT := fun todo _ _ ls =>
      ∃ made : List (MutationType × Json × String), (made.map (·.1)).Sublist todo ∧
        (∀ e ∈ made, MadeBy m (jobOf m p lang ast) e.1 e.2.1 e.2.2) ∧ ls = made.map fun e => .text e.2.2)
    (fun todo rng n => turns_out m (jobOf m p lang ast) hs n { todo := todo, rng := rng })
  rw [generate_eq] at hok
  rcases hrd : m.reading p s with ⟨o, s0⟩
  rw [hrd] at hr
  cases hr
  rw [Act.bind_of_ok hrd] at hok
  have hrd' : m.told.reading p (s, before) = (.ok (lang, ast), s0, before) := by rw [Mute.reading m p s before, hrd]
  obtain ⟨ls, e1, e2⟩ := hg s0 before
  obtain ⟨s1, s2, l1, l2, l4, todo, rng, h1, h2, h3, h5, ⟨made, h4, h6, h7⟩, h8⟩ := e2 () s' hok
  simp only at hok e1
  rw [hok] at e1
  have hsel := select_spec (table := tableOf m p lang ast) (countTable_keys_nodup _ _ _ _) fuel p.numberOfMutants p.rng
  have horg : ∃ original, (p.printOriginal = true → m.print lang ast = .ok original) ∧
      l1 = if p.printOriginal then [.text original] else [] := by
    cases hp : p.printOriginal with
    | false => exact ⟨"", by simp, (h1.1 hp).1⟩
    | true =>
      obtain ⟨text, q1, q2⟩ := h1.2.1 hp hs
      exact ⟨text, fun _ => q1, q2⟩
  obtain ⟨original, ho1, ho2⟩ := horg
  refine ⟨placesOf m p lang ast, usableTypes (tableOf m p lang ast), _, original, made,
    fun t => ⟨placesOf_sublist m p lang ast t, mem_placesOf m hsh p lang ast t⟩, usable_sorted m p lang ast,
    mem_usable m hsh p lang ast, rfl, ?_, ho1, ?_, ?_, ?_⟩
  · rw [generateSaid_eq, Act.bind_of_ok hrd', e1, h8]
    have e2 : l2 = if p.saveConfig then [.text (m.configText (savedConfig defaultCompiler lang p))] else [] := by
      cases hp : p.saveConfig with
      | false => exact (h2.1 hp).1
      | true => exact h2.2.1 hp hs
    rw [ho2, e2, h7, ← sum_places m hsh p lang ast]
    unfold selectionLines
    rfl
  · exact scheduled_le m hsh p lang ast h3 h4
  · have hl := h4.length_le
    rw [List.length_map] at hl
    rcases hsel with ⟨todo', r', w1, -, -, w2⟩ | w
    · rw [h3] at w1
      cases w1
      omega
    · rw [h3] at w
      cases w
  · intro t mutant text he
    obtain ⟨w1, w2, w3⟩ := made_one m hsh p lang ast (h6 _ he)
    exact ⟨w2, w1, w3⟩

/-- **C80 fails** in every run to standard output that ends well: there are lines that belong to no text, in front of the first
mutant. -/
theorem C80_messages_counterexample (m : Machine S R) (hsh : ∀ l, (m.shuffle l).Perm l) (fuel : Nat) (p : Params R) (s s' : S)
    (hs : p.useStdout = true) (lang : Language) (ast : Json) (hr : (m.reading p s).1 = .ok (lang, ast))
    (hok : m.generate fuel p s = (.ok (), s')) :
    ∃ algorithms total ls, m.generateSaid fuel p (s, []) = (.ok (), s', ls) ∧
      .nodesFor algorithms ∈ ls ∧ .atMost total ∈ ls := by
  obtain ⟨-, algorithms, total, original, made, -, -, -, -, h, -⟩ := C80_layout_partial m hsh fuel p s s' hs lang ast hr hok []
  exact ⟨algorithms, total, _, h, by simp, by simp⟩

/-- **C79, no influence.** The messages have no influence: the command ends in the same way and leaves the same files as without
them, and what was on standard output stays. -/
theorem C79_no_influence (m : Machine S R) (st : Start R) (order : List MutationType) (fuel : Nat) (a : Args) (s : S)
    (before : List Line) :
    ∃ ls, m.mutateSaid st order fuel a (s, before) =
      ((m.mutate st order fuel a s).1, (m.mutate st order fuel a s).2, before ++ ls) := by
  obtain ⟨ls, h, -⟩ := Tells.mutate_same m st order fuel a s before
  exact ⟨ls, h⟩

/-- **C81, the command `mutate`.** If the command ends well, nothing on standard output says that it failed, and the status is 0.
If it ends with an error, the last lines on standard output are the error and the time, and the status is again 0.  Only a crash
shows in the status, and a crash is not followed by the time.  Missing: a status other than 0 for errors, which the program does
not give (`C81_error_counterexample`). -/
theorem C81_mutate_partial (m : Machine S R) (st : Start R) (order : List MutationType) (fuel cols : Nat) (checks : Bool) (a : Args)
    (s s' : S) :
    (m.mutate st order fuel a s = (.ok (), s') →
      ∃ ls, m.main st order fuel cols checks (.mutate a) s = (.status 0, s', ls ++ [.elapsed]) ∧
        ∀ l ∈ ls, l ≠ .elapsed ∧ ∀ e, l ≠ .failed e) ∧
    (∀ e, m.mutate st order fuel a s = (.err e, s') →
      ∃ ls, m.main st order fuel cols checks (.mutate a) s = (.status 0, s', ls ++ [.failed e, .elapsed])) ∧
    (m.mutate st order fuel a s = (.panic, s') →
      ∃ ls, m.main st order fuel cols checks (.mutate a) s = (.status 101, s', ls)) := by
  obtain ⟨ls, h1, h2⟩ := Tells.mutate_same m st order fuel a s []
  unfold Machine.main Machine.command
  simp only [h1, List.nil_append]
  refine ⟨fun h => ?_, fun e h => ?_, fun h => ?_⟩
  · rw [h]
    exact ⟨ls, rfl, h2 () s' h⟩
  · rw [h]
    exact ⟨ls, by simp [say]⟩
  · rw [h]
    exact ⟨ls, rfl⟩

/-- **C81 fails**: whatever the error that ends the command `mutate`, the status is that of success. -/
theorem C81_error_counterexample (m : Machine S R) (st : Start R) (order : List MutationType) (fuel cols : Nat) (checks : Bool)
    (a : Args) (s : S) (e : Err) (h : (m.mutate st order fuel a s).1 = .err e) :
    (m.main st order fuel cols checks (.mutate a) s).1 = .status 0 := by
  rcases hm : m.mutate st order fuel a s with ⟨o, s'⟩
  rw [hm] at h
  obtain ⟨ls, h1⟩ := (C81_mutate_partial m st order fuel cols checks a s s').2.1 e (hm.trans (by rw [show o = .err e from h]))
  rw [h1]

/-- What standard output gets for an input of `pretty-print`. -/
def shownLine (stdout : Bool) : Shown → Option Line
  | .text _ text => some (.text text)
  | .failure f => some (.unprinted (if stdout then f else (Path.fileName f).getD ""))
  | .written .. => none

namespace Console

theorem pretty_said (m : Machine S R) (p : Prefs) (stdout : Bool) (dir : String) : ∀ (fs : List String) (s : S) (t : List Line),
    (∀ shown s', prettyPrintFiles m.toSys m.print p stdout dir fs s = (.ok shown, s') →
      ∃ s'', m.prettyPrintSaid p stdout dir fs (s, t) = (.ok (), s'', t ++ shown.filterMap (shownLine stdout)) ∧
        (stdout = false → s'' = s')) ∧
    (∀ s', prettyPrintFiles m.toSys m.print p stdout dir fs s = (.panic, s') →
      ∃ ls, m.prettyPrintSaid p stdout dir fs (s, t) = (.panic, s', t ++ ls))
  | [], s, t => by
    refine ⟨fun shown s' h => ?_, fun s' h => by cases h⟩
    cases h
    exact ⟨s, by simp [Machine.prettyPrintSaid, Pure.pure], fun _ => rfl⟩
  | f :: fs, s, t => by
    cases stdout with
    | true =>
      unfold prettyPrintFiles Machine.prettyPrintSaid
      simp only [if_true]
      have hm := (Mute.prettyPrintToStream m p f).attempt s t
      rcases ha : Act.attempt (prettyPrintToStream m.toSys m.print p f) s with ⟨o, s1⟩
      rw [ha] at hm
      simp only at hm
      cases o with
      | ok r =>
        rw [Act.bind_of_ok ha, Act.bind_of_ok hm]
        cases r with
        | none =>
          obtain ⟨h1, h2⟩ := pretty_said m p true dir fs s1 (t ++ [.unprinted f])
          simp only
          have hsay : say (.unprinted f) (s1, t) = (.ok (), s1, t ++ [.unprinted f]) := rfl
          rw [Act.bind_of_ok hsay]
          rcases hr : prettyPrintFiles m.toSys m.print p true dir fs s1 with ⟨o2, s2⟩
          rw [hr] at h1 h2
          refine ⟨fun shown s' h => ?_, fun s' h => ?_⟩
          · cases o2 with
            | ok rest =>
              rw [Act.bind_of_ok hr] at h
              cases h
              obtain ⟨s'', e1, -⟩ := h1 rest s2 rfl
              exact ⟨s'', by rw [e1]; simp [shownLine], by simp⟩
            | err e => simp [Bind.bind, Act.bind, hr] at h
            | panic => simp [Bind.bind, Act.bind, hr] at h
            | outOfFuel => simp [Bind.bind, Act.bind, hr] at h
          · cases o2 with
            | ok rest => rw [Act.bind_of_ok hr] at h; cases h
            | panic =>
              obtain ⟨ls, e1⟩ := h2 s2 rfl
              simp [Bind.bind, Act.bind, hr] at h
              subst h
              exact ⟨[.unprinted f] ++ ls, by rw [e1, List.append_assoc]⟩
            | err e => simp [Bind.bind, Act.bind, hr] at h
            | outOfFuel => simp [Bind.bind, Act.bind, hr] at h
        | some sh =>
          have hsh : ∃ text, sh = .text f text := by
            rcases hp : prettyPrintToStream m.toSys m.print p f s with ⟨o, s2⟩
            simp only [Act.attempt, hp] at ha
            cases o with
            | ok sh' => cases ha; exact ConsolePrint.stream_shows m p f _ _ _ hp
            | err e => cases ha
            | panic => cases ha
            | outOfFuel => cases ha
          obtain ⟨text, rfl⟩ := hsh
          refine ⟨fun shown s' h => ?_, fun s' h => by cases h⟩
          cases h
          exact ⟨_, rfl, by simp⟩
      | err e => exact ⟨fun shown s' h => by simp [Bind.bind, Act.bind, ha] at h, fun s' h => by simp [Bind.bind, Act.bind, ha] at h⟩
      | panic =>
        refine ⟨fun shown s' h => by simp [Bind.bind, Act.bind, ha] at h, fun s' h => ⟨[], ?_⟩⟩
        simp [Bind.bind, Act.bind, ha] at h
        subst h
        simp [Bind.bind, Act.bind, hm]
      | outOfFuel => exact ⟨fun shown s' h => by simp [Bind.bind, Act.bind, ha] at h, fun s' h => by simp [Bind.bind, Act.bind, ha] at h⟩
    | false =>
      unfold prettyPrintFiles Machine.prettyPrintSaid
      simp only [Bool.false_eq_true, if_false]
      cases hb : Path.fileName f with
      | none =>
        refine ⟨fun shown s' h => by simp [Bind.bind, Act.bind, Act.unwrap, Act.lift] at h, fun s' h => ⟨[], ?_⟩⟩
        simp [Bind.bind, Act.bind, Act.unwrap, Act.lift] at h
        subst h
        simp [Bind.bind, Act.bind, Act.unwrap, Act.lift]
      | some base =>
        have hu : (Act.unwrap (some base) : Act S String) s = (.ok base, s) := rfl
        have hu' : (Act.unwrap (some base) : Act (S × List Line) String) (s, t) = (.ok base, s, t) := rfl
        rw [Act.bind_of_ok hu, Act.bind_of_ok hu']
        have hm := (Mute.prettyPrintFile m p dir f).attempt s t
        rcases ha : Act.attempt (prettyPrintFile m.toSys m.print p dir f) s with ⟨o, s1⟩
        rw [ha] at hm
        simp only at hm
        cases o with
        | ok r =>
          have key : ∃ (l : List Line) (sh : Shown), (match (generalizing := false) r with | some sh => sh | none => .failure f) = sh ∧
              l = [sh].filterMap (shownLine false) ∧
              (match (generalizing := false) r with | some _ => Pure.pure () | none => say (.unprinted base) : Act (S × List Line) Unit) (s1, t) =
                (.ok (), s1, t ++ l) := by
            cases r with
            | none => exact ⟨_, _, rfl, rfl, by simp [shownLine, hb, say]⟩
            | some sh =>
              have hsh : ∃ target text, sh = .written f target text := by
                rcases hp : prettyPrintFile m.toSys m.print p dir f s with ⟨o, s2⟩
                simp only [Act.attempt, hp] at ha
                cases o with
                | ok sh' => cases ha; exact ConsolePrint.file_shows m p dir f _ _ _ hp
                | err e => cases ha
                | panic => cases ha
                | outOfFuel => cases ha
              obtain ⟨target, text, rfl⟩ := hsh
              exact ⟨_, _, rfl, rfl, by simp [shownLine, Pure.pure]⟩
          obtain ⟨l, sh, k1, k2, k3⟩ := key
          rw [Act.bind_of_ok ha, Act.bind_of_ok hm]
          obtain ⟨h1, h2⟩ := pretty_said m p false dir fs s1 (t ++ l)
          have main : ∀ X : Act (S × List Line) Unit, X (s1, t) = m.prettyPrintSaid p false dir fs (s1, t ++ l) →
              (∀ shown s', (prettyPrintFiles m.toSys m.print p false dir fs >>= fun rest => Pure.pure (sh :: rest)) s1 =
                (.ok shown, s') → ∃ s'', X (s1, t) = (.ok (), s'', t ++ shown.filterMap (shownLine false)) ∧ (True → s'' = s')) ∧
              (∀ s', (prettyPrintFiles m.toSys m.print p false dir fs >>= fun rest => Pure.pure (sh :: rest)) s1 =
                (.panic, s') → ∃ ls, X (s1, t) = (.panic, s', t ++ ls)) := by
            intro X hX
            rw [hX]
            rcases hr : prettyPrintFiles m.toSys m.print p false dir fs s1 with ⟨o2, s2⟩
            rw [hr] at h1 h2
            refine ⟨fun shown s' h => ?_, fun s' h => ?_⟩
            · cases o2 with
              | ok rest =>
                rw [Act.bind_of_ok hr] at h
                cases h
                obtain ⟨s'', e1, e2⟩ := h1 rest s2 rfl
                refine ⟨s'', ?_, fun _ => e2 rfl⟩
                rw [e1, k2, List.append_assoc, ← List.filterMap_append]
                rfl
              | err e => simp [Bind.bind, Act.bind, hr] at h
              | panic => simp [Bind.bind, Act.bind, hr] at h
              | outOfFuel => simp [Bind.bind, Act.bind, hr] at h
            · cases o2 with
              | ok rest => rw [Act.bind_of_ok hr] at h; cases h
              | panic =>
                obtain ⟨ls, e1⟩ := h2 s2 rfl
                simp [Bind.bind, Act.bind, hr] at h
                subst h
                exact ⟨l ++ ls, by rw [e1, List.append_assoc]⟩
              | err e => simp [Bind.bind, Act.bind, hr] at h
              | outOfFuel => simp [Bind.bind, Act.bind, hr] at h
          cases r with
          | none =>
            simp only at k1
            subst k1
            exact main _ (Act.bind_of_ok k3)
          | some a =>
            simp only at k1
            subst k1
            exact main (Pure.pure () >>= fun _ => m.prettyPrintSaid p false dir fs) (Act.bind_of_ok k3)
        | err e => exact ⟨fun shown s' h => by simp [Bind.bind, Act.bind, ha] at h, fun s' h => by simp [Bind.bind, Act.bind, ha] at h⟩
        | panic =>
          refine ⟨fun shown s' h => by simp [Bind.bind, Act.bind, ha] at h, fun s' h => ⟨[], ?_⟩⟩
          simp [Bind.bind, Act.bind, ha] at h
          subst h
          simp [Bind.bind, Act.bind, hm]
        | outOfFuel => exact ⟨fun shown s' h => by simp [Bind.bind, Act.bind, ha] at h, fun s' h => by simp [Bind.bind, Act.bind, ha] at h⟩

end Console

/-- **C81, the command `pretty-print`.** If the command ends well, standard output has a line for each input that could not be
printed and nothing else but the texts and the time, and the status is 0; a crash gives the status 101.  Missing: a status other than
0 if an input could not be printed, which the program does not give (`C81_unprinted_counterexample`). -/
theorem C81_pretty_print_partial (m : Machine S R) (st : Start R) (order : List MutationType) (fuel cols : Nat) (checks : Bool)
    (files : List String) (p : Prefs) (stdout : Bool) (dir : String) (s s' : S) :
    (∀ shown, prettyPrintFiles m.toSys m.print p stdout dir files s = (.ok shown, s') →
      ∃ s'', m.main st order fuel cols checks (.prettyPrint files p stdout dir) s =
        (.status 0, s'', shown.filterMap (shownLine stdout) ++ [.elapsed]) ∧ (stdout = false → s'' = s')) ∧
    (prettyPrintFiles m.toSys m.print p stdout dir files s = (.panic, s') →
      ∃ ls, m.main st order fuel cols checks (.prettyPrint files p stdout dir) s = (.status 101, s', ls)) := by
  obtain ⟨h1, h2⟩ := Console.pretty_said m p stdout dir files s []
  refine ⟨fun shown h => ?_, fun h => ?_⟩
  · obtain ⟨s'', e, e'⟩ := h1 shown s' h
    refine ⟨s'', ?_, e'⟩
    simp only [Machine.main, Machine.command, e, List.nil_append]
  · obtain ⟨ls, e⟩ := h2 s' h
    refine ⟨ls, ?_⟩
    simp only [Machine.main, Machine.command, e, List.nil_append]

/-- **C81 fails** for the command `pretty-print`: the only input is no program, nothing is printed, and the status is 0. -/
theorem C81_unprinted_counterexample :
    DemoMachine.machine.main ⟨fun _ => ⟨[]⟩, 0⟩ [] 100 80 false
      (.prettyPrint ["/in/c.txt"] DemoMachine.params.preferences false "out") DemoMachine.disk =
      (.status 0, DemoMachine.disk, [.unprinted "c.txt", .elapsed]) := by
  decide +kernel

/-- Example: the messages of a run to files. -/
example : (DemoMachine.machine.generateSaid 100 DemoMachine.params (DemoMachine.disk, [])).2.2 =
    [.original "b.sol" "out", .config "out/b.mgnx", .nodesFor [.arithmeticBinaryOp], .atMost 1, .lowering 1 1,
      .mutant .arithmeticBinaryOp "out/b.sol_0.sol"] := by
  decide +kernel

/-- Example: standard output of a run with `--stdout`. -/
example : (DemoMachine.machine.generateSaid 100 { DemoMachine.params with useStdout := true, printOriginal := false }
    (DemoMachine.disk, [])).2.2 =
    [.text "config", .nodesFor [.arithmeticBinaryOp], .atMost 1, .lowering 1 1, .text (DemoMachine.mutant "*")] := by
  decide +kernel

theorem DemoMachine.output_apart :
    OutputApart DemoMachine.machine (fun f (d : DemoSystem.Disk) => d.lookup f) DemoMachine.params.outputDirectory := by
  intro name h1 h2
  have hj : ∃ rest, (Path.join "out" name).toList = 'o' :: rest := by
    rw [Path.join_toList _ _ h1 (fun c hc e => h2 (e ▸ hc))]
    exact ⟨_, rfl⟩
  obtain ⟨rest, h⟩ := hj
  refine ⟨fun hp => ?_, fun t s => DemoSystem.lookup_put _ _ _ (fun e => ?_) s⟩
  · unfold InTemp at hp
    have hp : "/tmp".toList <+: (Path.join "out" name).toList := hp
    rw [h] at hp
    have := (List.cons_prefix_cons.1 (show '/' :: "tmp".toList <+: 'o' :: rest from hp)).1
    revert this; decide
  · have e : Path.join "out" name = "stdout" := e
    rw [e] at h
    have h := (List.cons.inj (show 's' :: "tdout".toList = 'o' :: rest from h)).1
    revert h; decide

/-- Example: the run of the example for C65 meets the hypotheses of `C79_report`; one place was found. -/
example : ∃ (places : MutationType → List Pos),
    ∀ pos, pos ∈ places .arithmeticBinaryOp ↔
      MayChange (R := ListRand) .solidity DemoMachine.machine.env [.arithmeticBinaryOp] [] DemoMachine.tree .arithmeticBinaryOp
        pos := by
  have hr : (DemoMachine.machine.reading DemoMachine.params DemoMachine.disk).1 = .ok (.solidity, DemoMachine.tree) := by
    decide +kernel
  have hok : (DemoMachine.machine.generate 100 DemoMachine.params DemoMachine.disk).1 = .ok () := by decide +kernel
  have hpair : ∀ x : Outcome Unit × DemoSystem.Disk, x.1 = .ok () → x = (.ok (), x.2) := by rintro ⟨a, b⟩ rfl; rfl
  obtain ⟨places, _, _, _, _, _, h, -⟩ := C79_report DemoMachine.machine (fun _ => .refl _) DemoMachine.contents
    (fun f t s _ => DemoMachine.holds f t s) 100 DemoMachine.params DemoMachine.disk _ "b.sol" (by decide) rfl .solidity
    DemoMachine.tree hr DemoMachine.output_apart (hpair _ hok) []
  exact ⟨places, (h _).2⟩

end Mutagenyx
