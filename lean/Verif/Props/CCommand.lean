import Verif.Model.CCommand
import Verif.Lemmas.CHeader

/-
C73: the command that generates C code.
-/

namespace Cantools
open C

/-! ### Specification -/

/-- The path of an output file: its name is the database name with a suffix, in the output directory. -/
def outputPath (a : CommandArgs) (suffix : String) : Chars := joinPath a.outputDirectory (commandName a ++ suffix.toList)

/-- The suffixes of the files that the command writes, with their contents. -/
def expectedFiles (a : CommandArgs) (t : Texts) : List (String × Chars) :=
  [(".h", t.header), (".c", t.source)] ++
    if a.generateFuzzer then [("_fuzzer.c", t.fuzzer), ("_fuzzer.mk", t.makefile)] else []

/-! ### Lemmas -/

theorem joinPath_suffix (dir name : Chars) : ∃ p, ∀ s : Chars, s ≠ [] → s.head? ≠ some '/' → joinPath dir (name ++ s) = p ++ s := by
  unfold joinPath
  cases name with
  | nil =>
    by_cases hd : dir = [] ∨ dir.getLast? = some '/'
    · exact ⟨dir, fun s _ h => by rw [List.nil_append, if_neg h, if_pos hd]⟩
    · exact ⟨dir ++ ['/'], fun s _ h => by rw [List.nil_append, if_neg h, if_neg hd]; simp⟩
  | cons c r =>
    by_cases hc : c = '/'
    · exact ⟨c :: r, fun s _ _ => by rw [if_pos (by simp [hc])]⟩
    · by_cases hd : dir = [] ∨ dir.getLast? = some '/'
      · exact ⟨dir ++ c :: r, fun s _ _ => by rw [if_neg (by simp [hc]), if_pos hd]; simp⟩
      · exact ⟨dir ++ '/' :: c :: r, fun s _ _ => by rw [if_neg (by simp [hc]), if_neg hd]; simp⟩

/-- The paths of a list of steps. -/
def written : List Step → List Chars
  | [] => []
  | .write p _ :: r => p :: written r
  | .print _ :: r => written r

theorem runSteps_other {Db E : Type} (env : CommandEnv Db E) (q : Chars) : ∀ (l : List Step) (s : CommandState E),
    q ∉ written l → (runSteps env l s).files q = s.files q := by
  intro l
  induction l with
  | nil => intro s _; rfl
  | cons x r ih =>
    intro s h
    cases x with
    | print t => exact ih _ h
    | write p t =>
      rw [written, List.mem_cons, not_or] at h
      rw [runSteps]
      cases env.openWrite p with
      | some e => rfl
      | none =>
        show (runSteps env r _).files q = _
        rw [ih _ h.2]
        exact if_neg h.1

theorem runSteps_all {Db E : Type} (env : CommandEnv Db E) (hopen : ∀ p, env.openWrite p = none) :
    ∀ (l : List Step) (s : CommandState E), s.error = none → (written l).Nodup → (runSteps env l s).error = none ∧
      ∀ p t, Step.write p t ∈ l → (runSteps env l s).files p = some t := by
  intro l
  induction l with
  | nil => intro s hs _; exact ⟨hs, by simp⟩
  | cons x r ih =>
    intro s hs hn
    cases x with
    | print v =>
      obtain ⟨h1, h2⟩ := ih { s with printed := s.printed ++ [v] } hs hn
      refine ⟨h1, fun p t h => ?_⟩
      rcases List.mem_cons.1 h with h | h
      · cases h
      · exact h2 p t h
    | write p t =>
      rw [written, List.nodup_cons] at hn
      rw [runSteps, hopen]
      obtain ⟨h1, h2⟩ := ih { s with files := fun q => if q = p then some t else s.files q } hs hn.2
      refine ⟨h1, fun p' t' h => ?_⟩
      rcases List.mem_cons.1 h with h | h
      · cases h
        show (runSteps env r _).files p = _
        rw [runSteps_other env p r _ hn.1]
        exact if_pos rfl
      · exact h2 p' t' h

theorem written_output (a : CommandArgs) (t : Texts) :
    written (outputSteps a t) = (expectedFiles a t).map fun e => outputPath a e.1 := by
  unfold outputSteps expectedFiles outputPath
  cases a.generateFuzzer <;> rfl

theorem outputPath_inj (a : CommandArgs) : ((([".h", ".c", "_fuzzer.c", "_fuzzer.mk"] : List String).map (outputPath a))).Nodup := by
  obtain ⟨p, hp⟩ := joinPath_suffix a.outputDirectory (commandName a)
  have : ([".h", ".c", "_fuzzer.c", "_fuzzer.mk"] : List String).map (outputPath a) =
      ([".h", ".c", "_fuzzer.c", "_fuzzer.mk"].map String.toList).map (p ++ ·) := by
    simp only [List.map_cons, List.map_nil, outputPath]
    rw [hp _ (by decide) (by decide), hp _ (by decide) (by decide), hp _ (by decide) (by decide), hp _ (by decide) (by decide)]
  rw [this]
  exact List.Nodup.map (fun _ _ h => List.append_cancel_left h) (by decide)

theorem written_nodup (a : CommandArgs) (t : Texts) : (written (outputSteps a t)).Nodup := by
  rw [written_output]
  have h := outputPath_inj a
  unfold expectedFiles
  cases a.generateFuzzer with
  | true => exact h
  | false =>
    have hs : (([".h", ".c"] : List String).map (outputPath a)).Sublist
        (([".h", ".c", "_fuzzer.c", "_fuzzer.mk"] : List String).map (outputPath a)) :=
      List.Sublist.map (outputPath a) (List.sublist_append_left [".h", ".c"] ["_fuzzer.c", "_fuzzer.mk"])
    exact h.sublist hs

/-! ### The command -/

/-- C73: if the database can be loaded and code can be generated for it, with the options given, the command writes the
header and the source file, and those of the fuzzer if they are wanted, and changes no other file. -/
theorem C73_files {Db E : Type} (env : CommandEnv Db E) (a : CommandArgs) (files : Chars → Option Chars) (db : Db) (t : Texts)
    (hload : env.load a.infile a.encoding a.prune (!a.noStrict) = .ok db)
    (hgen : env.generate db (commandName a) (commandName a ++ ".h".toList) (commandName a ++ ".c".toList)
      (commandName a ++ "_fuzzer.c".toList) (!a.noFloatingPoint) a.bitFields a.useFloat a.node a.useRound = .ok t)
    (hdir : env.makedirs a.outputDirectory = none) (hopen : ∀ p, env.openWrite p = none) :
    (command env a files).error = none ∧
      (∀ e ∈ expectedFiles a t, (command env a files).files (outputPath a e.1) = some e.2) ∧
      ∀ q, (∀ e ∈ expectedFiles a t, q ≠ outputPath a e.1) → (command env a files).files q = files q := by
  have hc : command env a files = runSteps env (outputSteps a t) { files } := by
    unfold command
    rw [hload]
    dsimp only
    rw [hgen]
    dsimp only
    rw [hdir]
  rw [hc]
  obtain ⟨h1, h2⟩ := runSteps_all env hopen (outputSteps a t) { files } rfl (written_nodup a t)
  refine ⟨h1, fun e he => h2 _ _ ?_, fun q hq => runSteps_other env q _ _ ?_⟩
  · unfold expectedFiles at he
    unfold outputSteps outputPath
    cases hf : a.generateFuzzer with
    | true =>
      rw [hf] at he
      simp only [if_true, List.cons_append, List.nil_append, List.mem_cons, List.not_mem_nil, or_false] at he
      rcases he with rfl | rfl | rfl | rfl <;> simp
    | false =>
      rw [hf] at he
      simp only [Bool.false_eq_true, if_false, List.append_nil, List.mem_cons, List.not_mem_nil, or_false] at he
      rcases he with rfl | rfl <;> simp
  · rw [written_output]
    intro hm
    obtain ⟨e, he, h⟩ := List.mem_map.1 hm
    exact hq e he h.symm

/-- The lines of a list of steps. -/
def lines : List Step → List Chars
  | [] => []
  | .write _ _ :: r => lines r
  | .print l :: r => l :: lines r

theorem runSteps_lines {Db E : Type} (env : CommandEnv Db E) (hopen : ∀ p, env.openWrite p = none) :
    ∀ (l : List Step) (s : CommandState E), (runSteps env l s).printed = s.printed ++ lines l := by
  intro l
  induction l with
  | nil => intro s; simp [runSteps, lines]
  | cons x r ih =>
    intro s
    cases x with
    | print v => rw [runSteps, ih, lines]; simp
    | write p t => rw [runSteps, hopen]; dsimp only; rw [ih, lines]

/-- C73: it then names the files it has written. -/
theorem C73_told {Db E : Type} (env : CommandEnv Db E) (a : CommandArgs) (files : Chars → Option Chars) (db : Db) (t : Texts)
    (hload : env.load a.infile a.encoding a.prune (!a.noStrict) = .ok db)
    (hgen : env.generate db (commandName a) (commandName a ++ ".h".toList) (commandName a ++ ".c".toList)
      (commandName a ++ "_fuzzer.c".toList) (!a.noFloatingPoint) a.bitFields a.useFloat a.node a.useRound = .ok t)
    (hdir : env.makedirs a.outputDirectory = none) (hopen : ∀ p, env.openWrite p = none) :
    ∀ line, line ∈ (command env a files).printed.filter (fun l => "Successfully".toList.isPrefixOf l) ↔
      line = "Successfully generated ".toList ++ outputPath a ".h" ++ " and ".toList ++ outputPath a ".c" ++ ".".toList ∨
        a.generateFuzzer = true ∧ line = "Successfully generated ".toList ++ outputPath a "_fuzzer.c" ++ " and ".toList ++
          outputPath a "_fuzzer.mk" ++ ".".toList := by
  have hc : command env a files = runSteps env (outputSteps a t) { files } := by
    unfold command
    rw [hload]
    dsimp only
    rw [hgen]
    dsimp only
    rw [hdir]
  intro line
  rw [hc, runSteps_lines env hopen]
  unfold outputSteps outputPath
  cases a.generateFuzzer <;>
    simp [lines, List.filter_cons, List.isPrefixOf]

/-- C73: in a directory that does not end with a slash, the file is below this directory. -/
theorem C73_path (a : CommandArgs) (suffix : String) (hs : suffix.toList.head? ≠ some '/')
    (hn : (commandName a).head? ≠ some '/') (hd : a.outputDirectory ≠ []) :
    outputPath a suffix = a.outputDirectory ++ (if a.outputDirectory.getLast? = some '/' then [] else ['/']) ++
      commandName a ++ suffix.toList := by
  have : (commandName a ++ suffix.toList).head? ≠ some '/' := by
    cases h : commandName a with
    | nil => rwa [List.nil_append]
    | cons x r => rw [h] at hn; exact hn
  unfold outputPath joinPath
  rw [if_neg this]
  by_cases hl : a.outputDirectory.getLast? = some '/'
  · rw [if_pos (.inr hl), if_pos hl]; simp
  · rw [if_neg (by rintro (h | h); exacts [hd h, hl h]), if_neg hl]; simp

/-- C73: if the database cannot be loaded, or no code can be generated, the command raises this error, prints nothing and
changes no file. -/
theorem C73_error {Db E : Type} (env : CommandEnv Db E) (a : CommandArgs) (files : Chars → Option Chars) (e : E)
    (h : env.load a.infile a.encoding a.prune (!a.noStrict) = .error e ∨
      ∃ db, env.load a.infile a.encoding a.prune (!a.noStrict) = .ok db ∧
        env.generate db (commandName a) (commandName a ++ ".h".toList) (commandName a ++ ".c".toList)
          (commandName a ++ "_fuzzer.c".toList) (!a.noFloatingPoint) a.bitFields a.useFloat a.node a.useRound = .error e) :
    command env a files = { files, error := some e } := by
  unfold command
  rcases h with h | ⟨db, h, hg⟩
  · rw [h]
  · rw [h]
    dsimp only
    rw [hg]

/-- C73: if the directory cannot be made or the header cannot be opened, this error is raised and no file has changed; if the
source file cannot be opened, the header has been written. -/
theorem C73_unwritable {Db E : Type} (env : CommandEnv Db E) (a : CommandArgs) (files : Chars → Option Chars) (db : Db)
    (t : Texts) (e : E) (hload : env.load a.infile a.encoding a.prune (!a.noStrict) = .ok db)
    (hgen : env.generate db (commandName a) (commandName a ++ ".h".toList) (commandName a ++ ".c".toList)
      (commandName a ++ "_fuzzer.c".toList) (!a.noFloatingPoint) a.bitFields a.useFloat a.node a.useRound = .ok t) :
    (env.makedirs a.outputDirectory = some e → command env a files = { files, error := some e }) ∧
      (env.makedirs a.outputDirectory = none → env.openWrite (outputPath a ".h") = some e →
        command env a files = { files, error := some e }) ∧
      (env.makedirs a.outputDirectory = none → env.openWrite (outputPath a ".h") = none →
        env.openWrite (outputPath a ".c") = some e → command env a files =
          { files := fun q => if q = outputPath a ".h" then some t.header else files q, error := some e }) := by
  unfold command
  rw [hload]
  dsimp only
  rw [hgen]
  dsimp only
  refine ⟨fun h => by rw [h], fun h h1 => ?_, fun h h1 h2 => ?_⟩
  · rw [h]
    show runSteps env (.write (outputPath a ".h") _ :: _) _ = _
    rw [runSteps, h1]
  · rw [h]
    show runSteps env (.write (outputPath a ".h") _ :: .write (outputPath a ".c") _ :: _) _ = _
    rw [runSteps, h1]
    dsimp only
    rw [runSteps, h2]

/-- C73: whatever fails, only the output files can have changed. -/
theorem C73_others {Db E : Type} (env : CommandEnv Db E) (a : CommandArgs) (files : Chars → Option Chars) (q : Chars)
    (hq : ∀ s ∈ [".h", ".c"] ++ (if a.generateFuzzer then ["_fuzzer.c", "_fuzzer.mk"] else []), q ≠ outputPath a s) :
    (command env a files).files q = files q := by
  unfold command
  split
  · rfl
  · dsimp only
    split
    · rfl
    · rename_i t _
      split
      · rfl
      · refine runSteps_other env q _ _ ?_
        rw [written_output]
        intro hm
        obtain ⟨e, he, h⟩ := List.mem_map.1 hm
        refine hq e.1 ?_ h.symm
        unfold expectedFiles at he
        cases hf : a.generateFuzzer with
        | true =>
          rw [hf] at he
          simp only [if_true, List.cons_append, List.nil_append, List.mem_cons, List.not_mem_nil, or_false] at he
          rcases he with rfl | rfl | rfl | rfl <;> simp
        | false =>
          rw [hf] at he
          simp only [Bool.false_eq_true, if_false, List.append_nil, List.mem_cons, List.not_mem_nil, or_false] at he
          rcases he with rfl | rfl <;> simp

theorem baseName_append {dir b : Chars} (hdir : dir = [] ∨ ∃ d, dir = d ++ ['/']) (hb : '/' ∉ b) : baseName (dir ++ b) = b := by
  have hb' : ∀ c ∈ b.reverse, (c != '/') = true := by
    intro c hc
    have : c ≠ '/' := by rintro rfl; exact hb (List.mem_reverse.1 hc)
    simpa using this
  unfold baseName
  rcases hdir with rfl | ⟨d, rfl⟩
  · have := List.takeWhile_append_of_pos (l₂ := []) hb'
    rw [List.append_nil] at this
    rw [List.nil_append, this, List.takeWhile_nil, List.append_nil, List.reverse_reverse]
  · rw [List.reverse_append, List.takeWhile_append_of_pos hb', List.reverse_append]
    simp

/-- C73: without a given name, the name is made of the file name without directories and without its extension, and consists
of lower case letters, digits and underscores. -/
theorem C73_name (a : CommandArgs) (hn : a.databaseName = none) {dir dots stem ext : Chars} {c : Char}
    (hin : a.infile = dir ++ (dots ++ c :: stem) ++ '.' :: ext) (hdots : ∀ x ∈ dots, x = '.') (hdir : dir = [] ∨ ∃ d, dir = d ++ ['/'])
    (hbase : '/' ∉ c :: stem ∧ '/' ∉ ext) (hext : '.' ∉ ext) (hc : c ≠ '.') :
    commandName a = camelToSnake (dots ++ c :: stem) ∧
      ∀ x ∈ commandName a, ('a' ≤ x ∧ x ≤ 'z') ∨ ('0' ≤ x ∧ x ≤ '9') ∨ x = '_' := by
  have hst : stemOf (baseName a.infile) = dots ++ c :: stem := by
    rw [hin, List.append_assoc, baseName_append hdir (by
      intro h
      rcases List.mem_append.1 h with h | h
      · rcases List.mem_append.1 h with h | h
        · exact absurd (hdots _ h) (by decide)
        · exact hbase.1 h
      · rcases List.mem_cons.1 h with h | h
        · exact absurd h (by decide)
        · exact hbase.2 h)]
    have hne : ¬ (c == '.') = true := by simpa using hc
    have hd : ∀ x ∈ dots, (x == '.') = true := fun x hx => by simp [hdots x hx]
    have h1 : (dots ++ c :: (stem ++ '.' :: ext)).takeWhile (fun x => x == '.') = dots := by
      rw [List.takeWhile_append_of_pos hd, List.takeWhile_cons, if_neg hne, List.append_nil]
    have h2 : (dots ++ c :: (stem ++ '.' :: ext)).dropWhile (fun x => x == '.') = c :: (stem ++ '.' :: ext) := by
      rw [List.dropWhile_append_of_pos hd, List.dropWhile_cons, if_neg hne]
    unfold stemOf
    simp only [List.append_assoc, List.cons_append, h1, h2]
    rw [if_pos (by simp)]
    have hrev : (c :: (stem ++ '.' :: ext)).reverse = ext.reverse ++ '.' :: (c :: stem).reverse := by simp
    rw [hrev, List.dropWhile_append_of_pos, List.dropWhile_cons_of_neg (by decide)]
    · simp
    · intro x hx
      have : x ≠ '.' := by rintro rfl; exact hext (List.mem_reverse.1 hx)
      simpa using this
  have hname : commandName a = camelToSnake (dots ++ c :: stem) := by
    unfold commandName
    rw [hn]
    dsimp only
    rw [hst]
  refine ⟨hname, fun x hx => ?_⟩
  rw [hname] at hx
  have := snake_chars _ x hx
  unfold snakeChar at this
  simpa [isLowerAZ, isDigit09, or_assoc] using this

/-- C73: a file name that begins with a digit makes names of functions that begin with a digit: the code does not
compile. -/
theorem C73_digit_fails : ∃ (a : CommandArgs) (m : GenMessage), a.databaseName = none ∧
    ∃ p ∈ declarations { database := commandName a } [m], p.name.head?.any isDigit09 = true :=
  ⟨{ infile := "2wd.dbc".toList }, { name := "Axle", frameId := 1, length := 8, signals := [] }, rfl, by decide +kernel⟩

/-- C73: a given name is used as it is, even if no names of functions can be made of it. -/
theorem C73_given_fails : ∃ (a : CommandArgs) (m : GenMessage), a.databaseName = some "my-bus".toList ∧
    ∃ p ∈ declarations { database := commandName a } [m], '-' ∈ p.name :=
  ⟨{ infile := "a.dbc".toList, databaseName := some "my-bus".toList },
    { name := "Axle", frameId := 1, length := 8, signals := [] }, rfl, by decide +kernel⟩

namespace CCommandExample

def env : CommandEnv Unit Unit where
  load := fun _ _ _ _ => .ok ()
  generate := fun _ n h c f _ _ _ _ _ => .ok ⟨n, h, c, f⟩
  makedirs := fun _ => none
  openWrite := fun _ => none

def args : CommandArgs :=
  { infile := "in/MotorBus.v2.dbc".toList, outputDirectory := "out".toList, generateFuzzer := true }

/-- The files of a run. -/
example : (command env args fun _ => none).files "out/motor_bus_v2.h".toList = some "motor_bus_v2".toList ∧
    (command env args fun _ => none).files "out/motor_bus_v2_fuzzer.mk".toList = some "motor_bus_v2_fuzzer.c".toList ∧
      (command env args fun _ => none).files "out/motor_bus.h".toList = none ∧
        (command env args fun _ => none).printed.length = 5 := by decide +kernel

end CCommandExample

end Cantools
