import Verif.Model.System
import Verif.Spec.Paths
import Verif.Spec.DemoSystem

/-!
# Which inputs the command `pretty-print` prints (property C50)
-/

namespace Mutagenyx

variable {S : Type}

/-- Whatever has happened before, the input can be read, and `text` is printed for it. -/
def Readable (sys : Sys S) (print : Language → Json → Outcome String) (p : Prefs) (file : String) (lang : Language) (text : String) :
    Prop :=
  ∀ s, ∃ ast s', readInput sys p file s = (.ok (lang, ast), s') ∧ print lang ast = .ok text

/-- Whatever has happened before, reading or printing the input is an error. -/
def Unreadable (sys : Sys S) (print : Language → Json → Outcome String) (p : Prefs) (file : String) : Prop :=
  ∀ s, ∃ e s', readInput sys p file s = (.err e, s') ∨
    ∃ lang ast, readInput sys p file s = (.ok (lang, ast), s') ∧ print lang ast = .err e

namespace PrettyPrint

variable {sys : Sys S} {print : Language → Json → Outcome String} {p : Prefs} {file text : String} {lang : Language}

theorem stream_readable (h : Readable sys print p file lang text) (s : S) :
    ∃ s', prettyPrintToStream sys print p file s = (.ok (.text file text), s') := by
  obtain ⟨ast, s', h1, h2⟩ := h s
  exact ⟨s', by simp only [prettyPrintToStream, bind, Act.bind, h1, h2, Act.lift, pure]⟩

theorem stream_unreadable (h : Unreadable sys print p file) (s : S) :
    ∃ e s', prettyPrintToStream sys print p file s = (.err e, s') := by
  obtain ⟨e, s', h1 | ⟨lang, ast, h1, h2⟩⟩ := h s
  · exact ⟨e, s', by simp only [prettyPrintToStream, bind, Act.bind, h1]⟩
  · exact ⟨e, s', by simp only [prettyPrintToStream, bind, Act.bind, h1, h2, Act.lift]⟩

theorem file_readable (h : Readable sys print p file lang text) {dir target : String}
    (ht : printTarget (suffixOf lang) file dir = some target) (hw : ∀ f t s, (sys.write f t s).1 = true) (s : S) :
    ∃ s', prettyPrintFile sys print p dir file s = (.ok (.written file target text), s') := by
  obtain ⟨ast, s', h1, h2⟩ := h s
  rw [show suffixOf lang = lang.ext by cases lang <;> rfl] at ht
  refine ⟨(sys.write target text s').2, ?_⟩
  have hw' := hw target text s'
  simp only [prettyPrintFile, bind, Act.bind, h1, h2, Act.lift, ht, Act.unwrap, Sys.create, hw', if_true]
  rfl

theorem file_unreadable (h : Unreadable sys print p file) {dir : String} (hn : ∃ base, Path.fileName file = some base) (s : S) :
    ∃ e s', prettyPrintFile sys print p dir file s = (.err e, s') := by
  obtain ⟨base, hb⟩ := hn
  obtain ⟨e, s', h1 | ⟨lang, ast, h1, h2⟩⟩ := h s
  · exact ⟨e, s', by simp only [prettyPrintFile, bind, Act.bind, h1]⟩
  · exact ⟨e, s', by simp only [prettyPrintFile, bind, Act.bind, h1, h2, Act.lift, Act.unwrap, printTarget, hb]⟩

end PrettyPrint

open PrettyPrint

/-- **C50, standard output.** Inputs that cannot be read are reported in order up to the first that can, which is
printed.  Missing: the inputs after it. -/
theorem C50_stdout_partial (sys : Sys S) (print : Language → Json → Outcome String) (p : Prefs) (dir : String)
    (bad : List String) (file text : String) (lang : Language) (more : List String)
    (hb : ∀ f ∈ bad, Unreadable sys print p f) (hr : Readable sys print p file lang text) (s : S) :
    ∃ s', prettyPrintFiles sys print p true dir (bad ++ file :: more) s = (.ok (bad.map .failure ++ [.text file text]), s') := by
  induction bad generalizing s with
  | nil =>
    obtain ⟨s', h⟩ := stream_readable hr s
    exact ⟨s', by simp only [List.nil_append, prettyPrintFiles, if_true, bind, Act.bind, Act.attempt, h]; rfl⟩
  | cons f bad ih =>
    obtain ⟨e, s1, h⟩ := stream_unreadable (hb f List.mem_cons_self) s
    obtain ⟨s', h'⟩ := ih (fun g hg => hb g (List.mem_cons_of_mem _ hg)) s1
    refine ⟨s', ?_⟩
    rw [List.cons_append, prettyPrintFiles, if_pos rfl]
    simp only [bind, Act.bind, Act.attempt, h, h']
    rfl

/-- **C50, standard output, nothing to print.** If no input can be read, each is reported in order. -/
theorem C50_stdout_unreadable (sys : Sys S) (print : Language → Json → Outcome String) (p : Prefs) (dir : String)
    (bad : List String) (hb : ∀ f ∈ bad, Unreadable sys print p f) (s : S) :
    ∃ s', prettyPrintFiles sys print p true dir bad s = (.ok (bad.map .failure), s') := by
  induction bad generalizing s with
  | nil => exact ⟨s, rfl⟩
  | cons f bad ih =>
    obtain ⟨e, s1, h⟩ := stream_unreadable (hb f List.mem_cons_self) s
    obtain ⟨s', h'⟩ := ih (fun g hg => hb g (List.mem_cons_of_mem _ hg)) s1
    refine ⟨s', ?_⟩
    rw [prettyPrintFiles, if_pos rfl]
    simp only [bind, Act.bind, Act.attempt, h, h']
    rfl

/-- What becomes of an input when it is printed to a directory. -/
inductive PrintedTo (sys : Sys S) (print : Language → Json → Outcome String) (p : Prefs) (dir : String) : String → Shown → Prop
  | written {file target text : String} {lang : Language} : Readable sys print p file lang text →
      printTarget (suffixOf lang) file dir = some target → PrintedTo sys print p dir file (.written file target text)
  | failure {file : String} : Unreadable sys print p file → (∃ base, Path.fileName file = some base) →
      PrintedTo sys print p dir file (.failure file)

/-- What becomes of inputs in order. -/
inductive PrintedAll (sys : Sys S) (print : Language → Json → Outcome String) (p : Prefs) (dir : String) :
    List String → List Shown → Prop
  | nil : PrintedAll sys print p dir [] []
  | cons {file : String} {shown : Shown} {files : List String} {rest : List Shown} : PrintedTo sys print p dir file shown →
      PrintedAll sys print p dir files rest → PrintedAll sys print p dir (file :: files) (shown :: rest)

/-- **C50, to a directory.** Without `--stdout` every input that can be read is printed and every other is reported, in
the order given. -/
theorem C50_directory (sys : Sys S) (print : Language → Json → Outcome String) (p : Prefs) (dir : String)
    (files : List String) (shown : List Shown) (hw : ∀ f t s, (sys.write f t s).1 = true)
    (h : PrintedAll sys print p dir files shown) (s : S) :
    ∃ s', prettyPrintFiles sys print p false dir files s = (.ok shown, s') := by
  induction h generalizing s with
  | nil => exact ⟨s, rfl⟩
  | @cons file shown files rest hf _ ih =>
    rw [prettyPrintFiles, if_neg (by decide)]
    cases hf with
    | written hr ht =>
      obtain ⟨s1, h1⟩ := file_readable hr ht hw s
      obtain ⟨s', h2⟩ := ih s1
      refine ⟨s', ?_⟩
      rename_i target text lang
      have : ∃ base, Path.fileName file = some base := by
        cases hb : Path.fileName file with
        | none => simp [printTarget, hb] at ht
        | some b => exact ⟨b, rfl⟩
      obtain ⟨base, hb⟩ := this
      simp only [bind, Act.bind, Act.attempt, Act.unwrap, Act.lift, hb, h1, h2]
      rfl
    | failure hu hn =>
      obtain ⟨e, s1, h1⟩ := file_unreadable (dir := dir) hu hn s
      obtain ⟨s', h2⟩ := ih s1
      refine ⟨s', ?_⟩
      obtain ⟨base, hb⟩ := hn
      simp only [bind, Act.bind, Act.attempt, Act.unwrap, Act.lift, hb, h1, h2]
      rfl

namespace PrettyPrint

/-- A text for each syntax tree, for examples. -/
def show1 (lang : Language) (_ : Json) : Outcome String := .ok (lang.toStr ++ " program")

/-- A machine on which nothing can be run and no file changes: it has two syntax trees. -/
def quiet : Sys Unit where
  exec := fun _ _ s => (none, s)
  readJson := fun f _ => if f = "/in/a.json" ∨ f = "/in/b.json" then some (.obj [("nodeType", .str "SourceUnit")]) else none
  write := fun _ _ s => (true, s)
  remove := fun _ s => s
  tmp := "/tmp"
  dashO := fun _ => .ok false

theorem quiet_readable {f : String} (h : f = "/in/a.json" ∨ f = "/in/b.json") :
    Readable quiet show1 Prefs.new f .solidity "Solidity program" := by
  intro s
  refine ⟨.obj [("nodeType", .str "SourceUnit")], (), ?_, rfl⟩
  cases s
  rcases h with rfl | rfl <;> decide +kernel

end PrettyPrint

/-- **C50 counterexample.** Two inputs that can both be read: only the first is printed. -/
theorem C50_stdout_counterexample :
    Readable quiet show1 Prefs.new "/in/a.json" .solidity "Solidity program" ∧
    Readable quiet show1 Prefs.new "/in/b.json" .solidity "Solidity program" ∧
    (prettyPrintFiles quiet show1 Prefs.new true "out" ["/in/a.json", "/in/b.json"] ()).1 =
      .ok [.text "/in/a.json" "Solidity program"] :=
  ⟨quiet_readable (.inl rfl), quiet_readable (.inr rfl), by decide +kernel⟩

/-- Example: to a directory both are printed, and the file that does not exist is reported. -/
example : (prettyPrintFiles quiet show1 Prefs.new false "out" ["/in/a.json", "/in/none", "/in/b.json"] ()).1 =
    .ok [.written "/in/a.json" "out/a.json.sol" "Solidity program", .failure "/in/none",
      .written "/in/b.json" "out/b.json.sol" "Solidity program"] := by decide +kernel

example : Unreadable quiet show1 Prefs.new "/in/none" := fun s => ⟨.languageNotRecognized, (), .inl (by cases s; decide +kernel)⟩

end Mutagenyx
