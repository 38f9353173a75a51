import Verif.Spec.Load
import Verif.Lemmas.Basic

/-
Properties of loading databases: C37, C38.
-/

set_option linter.unusedSimpArgs false

namespace Cantools
open Spec Load

section
variable {Can Diag E : Type} {P : Parsers Can Diag E} {o : Options} {text : String}

theorem Load.loadCan_eq (f : Format) (h : f ≠ .cdd) :
    loadCanDatabase P o text f = parsed P o text f := by
  unfold loadCanDatabase
  cases f with
  | cdd => exact (h rfl).elim
  | _ =>
    simp only [parsed, bind, Except.bind, pure, Except.pure]
    generalize P.can _ o text = r
    cases r with
    | error e => rfl
    | ok db =>
      simp only
      cases (if o.pruneChoices = true then P.prune db else Except.ok db) <;> rfl

theorem Load.attempt_true (r : Except E (Loaded Can Diag)) :
    attempt true r = (r.toOption, match r with | .ok _ => none | .error e => some e) := by
  cases r <;> rfl

theorem Load.attempt_false (r : Except E (Loaded Can Diag)) : attempt false r = (none, none) := rfl

/-- C38: without a format, the database of the first parser in the documented order that accepts the
text is returned. -/
theorem C38_first_accepting (db : Loaded Can Diag) :
    loadString P o none text = .ok db ↔
      ∃ before f after, order = before ++ f :: after ∧ parsed P o text f = .ok db ∧
        ∀ g ∈ before, ∃ e, parsed P o text g = .error e := by
  have hf : loadString P o none text = .ok db ↔
      (∃ f, (order.find? fun f => (parsed P o text f).isOk) = some f ∧ parsed P o text f = .ok db) := by
    unfold loadString
    simp only [Option.all_none, if_true, attempt_true, order, List.find?]
    rw [loadCan_eq _ (by decide), loadCan_eq _ (by decide), loadCan_eq _ (by decide),
      loadCan_eq _ (by decide)]
    have hc : Except.map Loaded.diag (P.cdd text) = parsed P o text .cdd := rfl
    rw [hc]
    cases h1 : parsed P o text .arxml with
    | ok d => simp [Except.isOk, Except.toBool, Except.toOption, h1]
    | error e1 =>
    simp only [Except.toOption, Except.isOk, Except.toBool]
    cases h2 : parsed P o text .dbc with
    | ok d => simp [Except.isOk, Except.toBool, Except.toOption, h2]
    | error e2 =>
    simp only [Except.toOption, Except.isOk, Except.toBool]
    cases h3 : parsed P o text .kcd with
    | ok d => simp [Except.isOk, Except.toBool, Except.toOption, h3]
    | error e3 =>
    simp only [Except.toOption, Except.isOk, Except.toBool]
    cases h4 : parsed P o text .sym with
    | ok d => simp [Except.isOk, Except.toBool, Except.toOption, h4]
    | error e4 =>
    simp only [Except.toOption, Except.isOk, Except.toBool]
    cases h5 : parsed P o text .cdd with
    | ok d => simp [Except.isOk, Except.toBool, Except.toOption, h5]
    | error e5 => simp [Except.isOk, Except.toBool, Except.toOption]
  rw [hf]
  constructor
  · rintro ⟨f, h1, h2⟩
    rw [List.find?_eq_some_iff_append] at h1
    obtain ⟨_, before, after, h3, h4⟩ := h1
    refine ⟨before, f, after, h3, h2, ?_⟩
    intro g hg
    have := h4 g hg
    cases hr : parsed P o text g with
    | error e => exact ⟨e, rfl⟩
    | ok d => rw [hr] at this; simp [Except.isOk, Except.toBool] at this
  · rintro ⟨before, f, after, h1, h2, h3⟩
    refine ⟨f, ?_, h2⟩
    rw [List.find?_eq_some_iff_append]
    refine ⟨by rw [h2]; rfl, before, after, h1, ?_⟩
    intro g hg
    obtain ⟨e, he⟩ := h3 g hg
    rw [he]; rfl

/-- C38: it raises iff all parsers fail, and the exception then carries the error of every parser. -/
theorem C38_all_fail (e : LoadError E) :
    loadString P o none text = .error e ↔
      ∃ e1 e2 e3 e4 e5, e = .unsupported (some e1) (some e2) (some e3) (some e4) (some e5) ∧
        parsed P o text .arxml = .error e1 ∧ parsed P o text .dbc = .error e2 ∧
        parsed P o text .kcd = .error e3 ∧ parsed P o text .sym = .error e4 ∧
        parsed P o text .cdd = .error e5 := by
  unfold loadString
  simp only [Option.all_none, if_true, attempt_true]
  rw [loadCan_eq _ (by decide), loadCan_eq _ (by decide), loadCan_eq _ (by decide),
    loadCan_eq _ (by decide)]
  have hc : Except.map Loaded.diag (P.cdd text) = parsed P o text .cdd := rfl
  rw [hc]
  cases h1 : parsed P o text .arxml with
  | ok d => simp [Except.toOption]
  | error e1 =>
  simp only [Except.toOption]
  cases h2 : parsed P o text .dbc with
  | ok d => simp
  | error e2 =>
  simp only
  cases h3 : parsed P o text .kcd with
  | ok d => simp
  | error e3 =>
  simp only
  cases h4 : parsed P o text .sym with
  | ok d => simp
  | error e4 =>
  simp only
  cases h5 : parsed P o text .cdd with
  | ok d => simp
  | error e5 =>
    simp only [Except.error.injEq]
    constructor
    · rintro rfl
      exact ⟨e1, e2, e3, e4, e5, rfl, rfl, rfl, rfl, rfl, rfl⟩
    · rintro ⟨_, _, _, _, _, rfl, rfl, rfl, rfl, rfl, rfl⟩
      rfl

/-- C38: with a format only that parser is consulted. -/
theorem C38_given_format (f : Format) :
    loadString P o (some f.text) text = (parsed P o text f).mapError (only f) := by
  unfold loadString
  cases f <;>
    simp only [Format.text, Option.all_some, Format.ofString, Option.isSome_some, if_true] <;>
    simp only [Option.some.injEq, reduceCtorEq, decide_false, decide_true, attempt_false,
      attempt_true] <;>
    first
    | (rw [loadCan_eq _ (by decide)]; cases parsed P o text _ <;> rfl)
    | (have hc : Except.map Loaded.diag (P.cdd text) = parsed P o text .cdd := rfl
       rw [hc]; cases parsed P o text _ <;> rfl)

/-- C38: any other format is a `ValueError`. -/
theorem C38_unknown_format (s : String) (h : ∀ f : Format, s ≠ f.text) :
    loadString P o (some s) text = .error .valueError := by
  unfold loadString
  rw [if_neg]
  simp only [Option.all_some]
  have : Format.ofString s = none := by
    unfold Format.ofString
    split
    · exact (h .arxml rfl).elim
    · exact (h .dbc rfl).elim
    · exact (h .kcd rfl).elim
    · exact (h .sym rfl).elim
    · exact (h .cdd rfl).elim
    · rfl
  simp [this]

end

/-! ### The format of a file -/

section
variable {Can Diag E Content : Type} {env : Env Can Diag E Content} {r : Request}
  {files : Files Content}

theorem Load.documented_text {s : String} {f : Format} (h : documentedFormat s = some f) :
    s = f.text := by
  unfold documentedFormat at h
  split at h
  · cases h; assumption
  split at h
  · cases h; assumption
  split at h
  · cases h; assumption
  split at h
  · cases h; assumption
  split at h
  · cases h; assumption
  · cases h

/-- C47, the part that holds: a file with a known extension is read by the parser of that format, in
upper or lower case, with the given encoding or else cp1252 for DBC and SYM files and UTF-8 for all
others. -/
theorem C47_known_extension_partial {f : Format} {c : Content} {t : Nat} (hr : r.format = none)
    (hf : documentedFormat (String.ofList (extension r.filename.toList)) = some f)
    (hc : files r.filename = some (c, t)) :
    loadUncached env r files =
      ((parsed env.parsers r.options (env.read (r.encoding.getD
        (if f = .dbc ∨ f = .sym then "cp1252" else "utf-8")) c) f).mapError (only f)).mapError
        .load := by
  have he : (if f.text = "dbc" ∨ f.text = "sym" then "cp1252" else "utf-8") =
      (if f = .dbc ∨ f = .sym then "cp1252" else "utf-8" : String) := by cases f <;> rfl
  unfold loadUncached
  rw [hc]
  simp only [resolve, hr, Option.getD_none, documented_text hf, he]
  rw [C38_given_format]

/-- C47: a format that is given wins over the extension; the encoding is chosen as for an extension. -/
theorem C47_given_format {f : Format} {c : Content} {t : Nat} (hr : r.format = some f.text)
    (hc : files r.filename = some (c, t)) :
    loadUncached env r files =
      ((parsed env.parsers r.options (env.read (r.encoding.getD
        (if f = .dbc ∨ f = .sym then "cp1252" else "utf-8")) c) f).mapError (only f)).mapError
        .load := by
  have he : (if f.text = "dbc" ∨ f.text = "sym" then "cp1252" else "utf-8") =
      (if f = .dbc ∨ f = .sym then "cp1252" else "utf-8" : String) := by cases f <;> rfl
  unfold loadUncached
  rw [hc]
  simp only [resolve, hr, Option.getD_some, he]
  rw [C38_given_format]

/-- C47: the extension of a file: the part of the last component after its last dot, unless there
are only dots before that dot. -/
theorem C47_extension {dir dots stem ext : List Char}
    (hdir : dir = [] ∨ ∃ d, dir = d ++ ['/']) (hdots : ∀ c ∈ dots, c = '.')
    (hbase : '/' ∉ stem ∧ '/' ∉ ext) (hext : '.' ∉ ext) :
    (∀ c r, stem = c :: r → c ≠ '.' →
      extension (dir ++ dots ++ stem ++ '.' :: ext) = ext.map Char.toLower) ∧
    extension (dir ++ dots ++ ext) = [] := by
  have hlast : ∀ b : List Char, '/' ∉ b →
      ((dir ++ b).reverse.takeWhile (· != '/')).reverse = b := by
    intro b hb
    have hb' : ∀ c ∈ b.reverse, (c != '/') = true := by
      intro c hc
      have : c ≠ '/' := by rintro rfl; exact hb (List.mem_reverse.1 hc)
      simpa using this
    rcases hdir with rfl | ⟨d, rfl⟩
    · have := List.takeWhile_append_of_pos (l₂ := []) hb'
      rw [List.append_nil] at this
      rw [List.nil_append, this, List.takeWhile_nil, List.append_nil, List.reverse_reverse]
    · rw [List.reverse_append, List.takeWhile_append_of_pos hb', List.reverse_append]
      simp
  have hd : ∀ c ∈ dots, (c == '.') = true := fun c hc => by simp [hdots c hc]
  have hds : '/' ∉ dots := fun h => absurd (hdots _ h) (by decide)
  constructor
  · intro c r hs hc
    have hne : (c == '.') = false := by simpa using hc
    unfold extension
    rw [List.append_assoc, List.append_assoc, hlast _ (by simp [hbase, hds])]
    have hdrop : (dots ++ (stem ++ '.' :: ext)).dropWhile (· == '.') = stem ++ '.' :: ext := by
      rw [List.dropWhile_append_of_pos hd, hs, List.cons_append,
        List.dropWhile_cons_of_neg (by simp [hne])]
    have htake : ((stem ++ '.' :: ext).reverse.takeWhile (· != '.')).reverse = ext := by
      have : (stem ++ '.' :: ext).reverse = ext.reverse ++ '.' :: stem.reverse := by simp
      rw [this, List.takeWhile_append_of_pos, List.takeWhile_cons_of_neg (by decide)]
      · simp
      · intro x hx
        have : x ≠ '.' := by rintro rfl; exact hext (List.mem_reverse.1 hx)
        simpa using this
    simp only [hdrop, htake]
    rw [if_pos (by simp)]
  · unfold extension
    rw [List.append_assoc, hlast _ (by simp [hbase, hds])]
    have hdrop : (dots ++ ext).dropWhile (· == '.') = ext := by
      rw [List.dropWhile_append_of_pos hd]
      cases ext with
      | nil => rfl
      | cons x r =>
        rw [List.dropWhile_cons_of_neg]
        intro h
        have : x = '.' := by simpa using h
        exact hext (this ▸ List.mem_cons_self ..)
    simp only [hdrop]
    rw [if_neg]
    simp only [List.any_eq_true, not_exists, not_and]
    intro x hx h
    have : x = '.' := by simpa using h
    exact hext (this ▸ hx)

example : extension "data/.my.v1/..net.v2.DBC".toList = "dbc".toList := by
  rw [show "data/.my.v1/..net.v2.DBC".toList = "data/.my.v1/".toList ++ "..".toList ++ "net.v2".toList ++
    '.' :: "DBC".toList by decide +kernel]
  exact (C47_extension (.inr ⟨"data/.my.v1".toList, by decide +kernel⟩) (by decide +kernel)
    (by decide +kernel) (by decide +kernel)).1 'n' "et.v2".toList (by decide +kernel) (by decide)

/-- C47 is false of the code for unknown extensions: the documentation says that all formats are
tried, but `ValueError` is raised whatever the contents are. -/
theorem C47_unknown_extension {c : Content} {t : Nat} (hr : r.format = none)
    (hf : documentedFormat (String.ofList (extension r.filename.toList)) = none)
    (hc : files r.filename = some (c, t)) :
    loadUncached env r files = .error (.load .valueError) := by
  unfold loadUncached
  rw [hc]
  simp only [resolve, hr, Option.getD_none]
  rw [C38_unknown_format]
  · rfl
  · intro f hf'
    rw [hf'] at hf
    cases f <;> simp [documentedFormat, Format.text] at hf

/-- C47: `encoding=None` means cp1252 for DBC and SYM files, UTF-8 for all others. -/
theorem C47_encoding (f : Format) (n : String) :
    (resolve (some f.text) none n).2 = if f = .dbc ∨ f = .sym then "cp1252" else "utf-8" := by
  cases f <;> rfl

end

/-! ### The cache -/

section
variable {Can Diag E Content : Type} {env : Env Can Diag E Content} {w : World Can Diag Content}

/-- The entries of the cache are right for the present files, and none is from the future. -/
structure Load.CacheGood (env : Env Can Diag E Content) (w : World Can Diag Content) : Prop where
  right : ∀ k db, dictGet? w.cache (some k) = some db → k.mtime ≤ w.clock ∧
    ∀ c, w.files k.filename = some (c, k.mtime) →
      loadString env.parsers k.options (some k.format) (env.read k.encoding c) = .ok db
  past : ∀ n c t, w.files n = some (c, t) → t ≤ w.clock

theorem Load.cacheGood_change (h : CacheGood env w) (c : Change Content) :
    CacheGood env (w.change c) := by
  refine ⟨?_, ?_⟩
  · intro k db hk
    obtain ⟨h1, h2⟩ := h.right k db hk
    refine ⟨Nat.le_succ_of_le h1, ?_⟩
    intro x hx
    simp only [World.change] at hx
    split at hx
    · cases hc : c.content with
      | none => rw [hc] at hx; cases hx
      | some y =>
        rw [hc] at hx
        simp only [Option.map_some, Option.some.injEq, Prod.mk.injEq] at hx
        omega
    · exact h2 x hx
  · intro n x t hx
    simp only [World.change] at hx ⊢
    split at hx
    · cases hc : c.content with
      | none => rw [hc] at hx; cases hx
      | some y =>
        rw [hc] at hx
        simp only [Option.map_some, Option.some.injEq, Prod.mk.injEq] at hx
        omega
    · exact Nat.le_succ_of_le (h.past n x t hx)

theorem Load.cacheGood_changes (h : CacheGood env w) (cs : List (Change Content)) :
    CacheGood env (w.changes cs) := by
  induction cs generalizing w with
  | nil => exact h
  | cons c r ih => exact ih (cacheGood_change h c)

/-- A file that has the same modification time after some changes was not changed. -/
theorem Load.changes_same (cs : List (Change Content)) {w : World Can Diag Content} :
    (w.changes cs).cache = w.cache ∧ w.clock ≤ (w.changes cs).clock ∧
      ∀ n, (w.changes cs).files n = w.files n ∨
        ∀ c t, (w.changes cs).files n = some (c, t) → w.clock < t := by
  induction cs generalizing w with
  | nil => exact ⟨rfl, Nat.le_refl _, fun _ => Or.inl rfl⟩
  | cons c r ih =>
    obtain ⟨h1, h2, h3⟩ := ih (w := w.change c)
    have hc : (w.change c).clock = w.clock + 1 := rfl
    refine ⟨h1, by rw [hc] at h2; exact Nat.le_trans (Nat.le_succ _) h2, ?_⟩
    intro n
    rcases h3 n with h | h
    · have h : ((w.change c).changes r).files n = (w.change c).files n := h
      have hcs : (w.changes (c :: r)) = ((w.change c).changes r) := rfl
      rw [hcs, h]
      simp only [World.change]
      split
      · right
        intro x t hx
        cases hcc : c.content with
        | none => rw [hcc] at hx; cases hx
        | some y =>
          rw [hcc] at hx
          simp only [Option.map_some, Option.some.injEq, Prod.mk.injEq] at hx
          omega
      · exact Or.inl rfl
    · right
      intro x t hx
      have := h x t hx
      rw [hc] at this
      omega

theorem Load.uncached_eq {r : Request} {files : Files Content} {c : Content} {t : Nat}
    (h : files r.filename = some (c, t)) : loadUncached env r files =
      (loadString env.parsers r.options (some (resolve r.format r.encoding r.filename).1)
        (env.read (resolve r.format r.encoding r.filename).2 c)).mapError .load := by
  unfold loadUncached; rw [h]

theorem Load.cacheGood_load (h : CacheGood env w) (r : Request) (during : List (Change Content))
    (hs : r.options.sort.hasKey = true) : CacheGood env (w.load env r during).2 := by
  have hg := cacheGood_changes h during
  obtain ⟨hcache, hclock, hfiles⟩ := changes_same (w := w) during
  have hsame : ∀ cache, cache = w.cache →
      CacheGood env { w.changes during with cache := cache } := by
    rintro _ rfl
    rw [← hcache]
    exact hg
  simp only [World.load]
  unfold loadCached
  simp only [hs, if_true]
  cases hf : w.files r.filename with
  | none => exact hsame _ rfl
  | some ct =>
    obtain ⟨c, t⟩ := ct
    simp only
    generalize hk : (Key.mk (resolve r.format r.encoding r.filename).1
      (resolve r.format r.encoding r.filename).2 r.options r.filename t) = k
    cases hget : dictGet? w.cache (some k) with
    | some db => exact hsame _ rfl
    | none =>
      simp only
      cases hl : loadUncached env r (w.changes during).files with
      | error e => exact hsame _ rfl
      | ok db =>
        simp only
        split
        · refine ⟨?_, hg.past⟩
          intro k' db' hk'
          simp only at hk'
          rw [dictGet?_set] at hk'
          split at hk'
          · rename_i heq
            simp only [Option.some.injEq] at heq hk'
            subst heq hk'
            have ht : k.mtime = t := by rw [← hk]
            have hn : k.filename = r.filename := by rw [← hk]
            have htc : t ≤ w.clock := h.past _ _ _ hf
            refine ⟨by rw [ht]; exact Nat.le_trans htc hclock, ?_⟩
            intro x hx
            have hx : (w.changes during).files k.filename = some (x, k.mtime) := hx
            rw [hn, ht] at hx
            rcases hfiles r.filename with h1 | h1
            · rw [uncached_eq hx] at hl
              cases hp : loadString env.parsers r.options
                  (some (resolve r.format r.encoding r.filename).1)
                  (env.read (resolve r.format r.encoding r.filename).2 x) with
              | error e => rw [hp] at hl; cases hl
              | ok d =>
                rw [hp] at hl
                simp only [Except.mapError, Except.ok.injEq] at hl
                subst hl
                rw [← hk]
                exact hp
            · have := h1 x t hx
              omega
          · have := hg.right k' db' (by rw [hcache]; exact hk')
            exact this
        · exact hsame _ rfl

theorem Load.cacheGood (h : WorldReached env w) : CacheGood env w := by
  induction h with
  | start h1 h2 => exact ⟨(by rw [h1]; intro k db hk; cases hk), h2⟩
  | change c _ ih => exact cacheGood_change ih c
  | load r during _ hs ih => exact cacheGood_load ih r during hs

/-- C37, the part that holds: as long as no user-defined sort function is used and every modification
of a file changes its modification time, `load_file` with a cache directory does what it does without:
the result is that of loading the file at the time of the call or, if the file is changed during the
call, after that change. -/
theorem C37_transparent_partial (h : WorldReached env w) (r : Request)
    (during : List (Change Content)) (hs : r.options.sort.hasKey = true)
    (hp : ∀ db, env.picklable db = true) :
    (w.load env r during).1 = loadUncached env r w.files ∨
    (w.load env r during).1 = loadUncached env r (w.changes during).files := by
  have hg := cacheGood h
  simp only [World.load]
  unfold loadCached
  simp only [hs, if_true]
  cases hf : w.files r.filename with
  | none => left; unfold loadUncached; rw [hf]
  | some ct =>
    obtain ⟨c, t⟩ := ct
    simp only
    generalize hk : (Key.mk (resolve r.format r.encoding r.filename).1
      (resolve r.format r.encoding r.filename).2 r.options r.filename t) = k
    cases hget : dictGet? w.cache (some k) with
    | some db =>
      left
      have := (hg.right k db hget).2 c (by rw [← hk]; exact hf)
      rw [uncached_eq hf]
      rw [← hk] at this
      simp only at this
      rw [this]
      rfl
    | none =>
      right
      simp only
      cases loadUncached env r (w.changes during).files with
      | error e => rfl
      | ok db => simp [hp]

/-- C37 without changes during the call. -/
theorem C37_same_partial (h : WorldReached env w) (r : Request)
    (hs : r.options.sort.hasKey = true) (hp : ∀ db, env.picklable db = true) :
    (w.load env r []).1 = loadUncached env r w.files := by
  rcases C37_transparent_partial h r [] hs hp with h | h <;> exact h

end

/-! ### The claim is false with user-defined sort functions -/

namespace Example

/-- A parser for the examples: the database is the text. -/
def textEnv : Env String String String String where
  parsers := { can := fun f o t => if f = .dbc then .ok (t ++ match o.sort with
                    | .custom n _ => n | _ => "") else .error "no",
               prune := .ok, cdd := fun _ => .error "no" }
  read := fun _ c => c
  picklable := fun _ => true

def twoFiles : World String String String :=
  { files := fun n => if n = "a.dbc" then some ("A", 0) else if n = "b.dbc" then some ("B", 0) else none
    clock := 0
    cache := [] }

def mySort : Options := { sort := .custom "by_name" true }

theorem twoFiles_reached : WorldReached textEnv twoFiles :=
  .start rfl (by
    intro n c t h
    simp only [twoFiles] at h
    split at h
    · cases h; exact Nat.le_refl _
    · split at h
      · cases h; exact Nat.le_refl _
      · cases h)

/-- The second load of the same file is served by the cache, and after a change the file is read. -/
example : (((twoFiles.load textEnv { filename := "a.dbc" } []).2.load textEnv
      { filename := "a.dbc" } []).1, (((twoFiles.load textEnv { filename := "a.dbc" } []).2.change
      ⟨"a.dbc", some "A2"⟩).load textEnv { filename := "a.dbc" } []).1) =
    (.ok (.can "A"), .ok (.can "A2")) := by decide +kernel

end Example

open Example in
/-- C37 is false with a user-defined sort function: all such loads share one cache entry, so loading a
second file, or the same file with another function, returns the database of the first. -/
theorem C37_custom_sort_shares_entry :
    let w := (twoFiles.load textEnv { filename := "a.dbc", options := mySort } []).2
    (w.load textEnv { filename := "b.dbc", options := mySort } []).1 = .ok (.can "Aby_name") ∧
    loadUncached textEnv { filename := "b.dbc", options := mySort } w.files
      = .ok (.can "Bby_name") ∧
    (w.load textEnv { filename := "a.dbc", options := { sort := .custom "other" true } } []).1
      = .ok (.can "Aby_name") := by decide +kernel

/-- C37 is false with a sort function that cannot be pickled (and an empty cache): the load fails
although it succeeds without cache. -/
theorem C37_unpicklable_fails {Can Diag E Content : Type} (env : Env Can Diag E Content) (r : Request)
    (files : Files Content) (db : Loaded Can Diag) (hs : r.options.sort.hasKey = false)
    (hl : loadUncached env r files = .ok db) (hp : env.picklable db = false) :
    (loadCached env r files files []).1 = .error .pickle := by
  unfold loadCached
  simp [hs, hl, hp]

open Example in
/-- C37 needs that a modification changes the modification time: otherwise the old database is
returned. -/
theorem C37_same_mtime_stale :
    let w := (twoFiles.load textEnv { filename := "a.dbc" } []).2
    let files' : Files String := fun n => if n = "a.dbc" then some ("new", 0) else w.files n
    (loadCached textEnv { filename := "a.dbc" } files' files' w.cache).1 = .ok (.can "A") ∧
    loadUncached textEnv { filename := "a.dbc" } files' = .ok (.can "new") := by decide +kernel

/-! ### Examples -/

namespace Example

example : loadString textEnv.parsers {} none "x" = .ok (.can "x") := by decide +kernel
example : loadString textEnv.parsers {} (some "kcd") "x" =
    .error (.unsupported none none (some "no") none none) := by decide +kernel
example : documentedFormat (String.ofList (extension "dir.x/a.DBC".toList)) = some .dbc := by
  decide +kernel
example : documentedFormat (String.ofList (extension "a.txt".toList)) = none := by decide +kernel
example : loadUncached textEnv { filename := "a.txt" } (fun _ => some ("VERSION", 0)) =
    .error (.load .valueError) := by decide +kernel

end Example

end Cantools
