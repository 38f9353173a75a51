import Verif.Lemmas.FilesLoad
import Verif.Props.DbcFile
import Verif.Props.Sym

/-
C59: database files and the `convert` command.
-/

namespace Cantools
open Spec Dbc Files

section
variable {F : Type} {T : FloatText F} {db : DDatabase F} {good : Char → Prop} {encoding : Option Files.Codec}

theorem base_of (hg : ∀ c : Char, c.toNat < 0x80 → good c) : Base fun c => good c ∧ c ≠ '\r' :=
  ⟨fun c h h' => ⟨hg c h, h'⟩⟩

/-- The text that is read from a file that was written, of a SYM database. -/
theorem sym_file {codec : Files.Codec} (hk : Keeps codec good) (L : FloatLaws T) (W : SymDatabase T db)
    (hf : FineTexts good (symTexts db)) {linesep : Chars} (hl : linesep = ['\n'] ∨ linesep = ['\r', '\n'] ∨ linesep = ['\r'])
    {text : Chars} (ht : Sym.dumpString T (sortByStartBit T) db = .ok text) :
    universal (codec.decode ((translate linesep text).flatMap codec.encode)) = text := by
  have h := fine_symText (base_of hk.ascii) L (db := db) hf
    (fun m hm s hs v hv => by
      obtain ⟨i, -, e⟩ := ((W.messages m hm).signals s hs).spn v hv
      exact ⟨_, e⟩)
    (fun l => sortedBy_perm _ l) ht
  rw [hk.keeps, universal_translate hl fun hc => (h _ hc).2 rfl]
  intro c hc
  obtain ⟨d, hd, hc⟩ := List.mem_flatMap.1 hc
  split at hc
  · refine hk.ascii c ?_
    rcases hl with rfl | rfl | rfl <;> simp at hc
    · subst hc; decide
    · rcases hc with rfl | rfl <;> decide
    · subst hc; decide
  · simp only [List.mem_cons, List.not_mem_nil, or_false] at hc
    subst hc
    exact (h _ hd).1

theorem resolve_dbc {filename : Chars} (h : Load.extension filename = "dbc".toList) :
    resolve encoding filename = ("dbc".toList, some (encoding.getD cp1252)) := by
  unfold resolve
  rw [h]
  cases encoding <;> rfl

theorem resolve_sym {filename : Chars} (h : Load.extension filename = "sym".toList) :
    resolve encoding filename = ("sym".toList, some (encoding.getD cp1252)) := by
  unfold resolve
  rw [h]
  cases encoding <;> rfl

theorem sortReversed_perm (l : List (DSignal F)) : (sortReversed T l).Perm l :=
  (List.reverse_perm _).trans (sortedBy_perm _ l)

/-- C59: a DBC file that was written for a database is read as a database with the same contents, on every
platform and with every encoding that has the characters of the database; without an encoding it is
cp1252. -/
theorem C59_dbc_file (L : FloatLaws T) {U : Unicode} (hU : UnicodeLaws U) (W : WritableDatabase T db)
    (K : KeptNames db) {strict : Bool} (C : ∀ m ∈ db.messages, ∃ pattern msg, messageOf T pattern strict m = .ok msg)
    (hk : Keeps (encoding.getD cp1252) good) (hf : FineTexts good (dbcTexts db)) (linesep : Chars)
    {filename other : Chars} (hn : Load.extension filename = "dbc".toList) (ho : Load.extension other = "dbc".toList) :
    ∃ bytes, dumpFile U T linesep encoding filename db = .ok bytes ∧
      ∃ db', loadFile T encoding strict other bytes = .ok db' ∧ SameDatabase T db db' := by
  obtain ⟨text, h1, db', h2, h3⟩ := C45_round_trip (shorten := true) L hU W (fun _ => K) C (sortReversed_perm (T := T)) (sortReversed_perm (T := T))
  obtain ⟨hg, hu⟩ := dbc_text L hU W (fun _ => K) hk.ascii hf sortReversed_perm sortReversed_perm h1
  refine ⟨text.flatMap (encoding.getD cp1252).encode, ?_, db', ?_, h3⟩
  · unfold dumpFile
    rw [resolve_dbc hn]
    simp only [if_true, h1]
    rfl
  · unfold loadFile
    rw [resolve_dbc ho]
    simp only [if_true, hk.keeps text hg, hu, h2]

theorem symTexts_asSym : symTexts (asSym db) = symTexts db := by
  unfold symTexts asSym
  rw [List.flatMap_map]
  rfl

/-- C59: the same for SYM files, with what a SYM file has fields for. -/
theorem C59_sym_file (L : FloatLaws T) {U : Unicode} (W : SymDatabase T (asSym db))
    (C : ∀ m ∈ db.messages, ∃ pattern msg, messageOf T pattern true m = .ok msg) (strict : Bool)
    (hk : Keeps (encoding.getD cp1252) good) (hf : FineTexts good (symTexts db)) {linesep : Chars}
    (hl : linesep = ['\n'] ∨ linesep = ['\r', '\n'] ∨ linesep = ['\r'])
    {filename other : Chars} (hn : Load.extension filename = "sym".toList) (ho : Load.extension other = "sym".toList) :
    ∃ bytes, dumpFile U T linesep encoding filename db = .ok bytes ∧
      ∃ db', loadFile T encoding strict other bytes = .ok db' ∧ SymKept T (asSym db) db' := by
  have C' : ∀ m ∈ (asSym db).messages, ∃ pattern msg, messageOf T pattern true m = .ok msg := by
    intro m hm
    obtain ⟨m', hm', rfl⟩ := List.mem_map.1 hm
    exact C m' hm'
  obtain ⟨text, h1, db', h2, h3⟩ := C48_round_trip L W C' strict (sort := sortByStartBit T) (fun l => sortedBy_perm _ l)
  have hu := sym_file hk L W (by rw [symTexts_asSym]; exact hf) hl h1
  rw [dumpString_asSym] at h1
  refine ⟨(translate linesep text).flatMap (encoding.getD cp1252).encode, ?_, db', ?_, h3⟩
  · unfold dumpFile
    rw [resolve_sym hn]
    simp only [if_neg (show "sym".toList ≠ "dbc".toList by decide), if_true, h1]
    rfl
  · unfold loadFile
    rw [resolve_sym ho]
    simp only [if_neg (show "sym".toList ≠ "dbc".toList by decide), if_true, hu, h2]

theorem convert_of {U : Unicode} {linesep infile outfile : Chars} {noStrict : Bool} {bytes : List UInt8}
    (h : loadFile T encoding (!noStrict) infile bytes = .ok db) :
    convert U T linesep encoding noStrict infile outfile bytes = dumpFile U T linesep encoding outfile db := by
  unfold convert
  rw [h]
  rfl

/-- C59: converting a file to DBC: if the database of the input file can be written, the command succeeds, and the output
file has the same database. -/
theorem C59_convert_to_dbc (L : FloatLaws T) {U : Unicode} (hU : UnicodeLaws U) {linesep infile outfile : Chars}
    {noStrict : Bool} {bytes : List UInt8} (h : loadFile T encoding (!noStrict) infile bytes = .ok db)
    (W : WritableDatabase T db) (K : KeptNames db) (hk : Keeps (encoding.getD cp1252) good)
    (hf : FineTexts good (dbcTexts db)) (ho : Load.extension outfile = "dbc".toList) :
    ∃ out, convert U T linesep encoding noStrict infile outfile bytes = .ok out ∧
      ∃ db', loadFile T encoding (!noStrict) outfile out = .ok db' ∧ SameDatabase T db db' := by
  rw [convert_of h]
  exact C59_dbc_file L hU W K (loadFile_constructible h) hk hf linesep ho ho

/-- C59: converting a file to SYM. -/
theorem C59_convert_to_sym (L : FloatLaws T) {U : Unicode} {linesep infile outfile : Chars} {bytes : List UInt8}
    (h : loadFile T encoding true infile bytes = .ok db) (W : SymDatabase T (asSym db))
    (hk : Keeps (encoding.getD cp1252) good) (hf : FineTexts good (symTexts db))
    (hl : linesep = ['\n'] ∨ linesep = ['\r', '\n'] ∨ linesep = ['\r']) (ho : Load.extension outfile = "sym".toList) :
    ∃ out, convert U T linesep encoding false infile outfile bytes = .ok out ∧
      ∃ db', loadFile T encoding true outfile out = .ok db' ∧ SymKept T (asSym db) db' := by
  rw [convert_of (noStrict := false) h]
  exact C59_sym_file L W (loadFile_constructible h) true hk hf hl ho ho

theorem perm_of_map {α β : Type} {f : α → β} {l : List β} {k : List α} (h : l.Perm (k.map f)) :
    ∃ l' : List α, l'.Perm k ∧ l = l'.map f := by
  obtain ⟨l', h1, h2⟩ := List.perm_comp_forall₂ (r := fun b a => b = f a) h
    (List.forall₂_map_left_iff.2 (List.forall₂_same.2 fun _ _ => rfl))
  refine ⟨l', h2, ?_⟩
  clear h h2
  induction h1 with
  | nil => rfl
  | cons e _ ih => rw [List.map_cons, ← e, ← ih]

theorem same_forall₂ {α β : Type} {r s t : α → β → Prop} (h : ∀ a b, r a b → s a b → t a b) {l : List α} {k : List β}
    (h1 : List.Forall₂ r l k) (h2 : List.Forall₂ s l k) : List.Forall₂ t l k := by
  induction h1 with
  | nil => exact .nil
  | cons e _ ih =>
    cases h2 with
    | cons e' h2 => exact .cons (h _ _ e e') (ih h2)

/-- C59: after a conversion from DBC or SYM to DBC or SYM, frames mean the same: the messages of the output file are those
of the input file, in some order; each encodes all data to the same frame and decodes all complete frames to the same
values as before. -/
theorem C59_convert_frames {fo : FloatOps} (L : FloatLaws T) {U : Unicode} (hU : UnicodeLaws U)
    {linesep infile outfile : Chars} {bytes : List UInt8} (h : loadFile T encoding true infile bytes = .ok db)
    (hk : Keeps (encoding.getD cp1252) good) (hp : NoNamedFloats db)
    (hl : linesep = ['\n'] ∨ linesep = ['\r', '\n'] ∨ linesep = ['\r'])
    (ho : (Load.extension outfile = "dbc".toList ∧ WritableDatabase T db ∧ KeptNames db ∧ FineTexts good (dbcTexts db)) ∨
      (Load.extension outfile = "sym".toList ∧ SymDatabase T (asSym db) ∧ FineTexts good (symTexts db))) :
    ∃ out db', convert U T linesep encoding false infile outfile bytes = .ok out ∧
      loadFile T encoding true outfile out = .ok db' ∧
      ∃ l : List (DMessage F), l.Perm db.messages ∧ List.Forall₂ (FramesSurvive fo T) l db'.messages := by
  have C : ∀ m ∈ db.messages, ∃ pattern msg, messageOf T pattern true m = .ok msg := loadFile_constructible h
  rcases ho with ⟨he, W, K, hf⟩ | ⟨he, W, hf⟩
  · obtain ⟨out, h1, db', h2, h3⟩ := C59_convert_to_dbc (noStrict := false) (linesep := linesep) L hU h W K hk hf he
    refine ⟨out, db', h1, h2, db.messages, .refl _, ?_⟩
    obtain ⟨text, db'', t1, t2, t3⟩ := C45_frames_survive (fo := fo) (shorten := true) L hU W (fun _ => K) C hp
      (sortReversed_perm (T := T)) (sortReversed_perm (T := T))
    obtain ⟨hg, hu⟩ := dbc_text L hU W (fun _ => K) hk.ascii hf sortReversed_perm sortReversed_perm t1
    have : db'' = db' := by
      rw [convert_of (noStrict := false) h] at h1
      unfold dumpFile at h1
      rw [resolve_dbc he] at h1
      simp only [if_true, t1] at h1
      cases h1
      unfold loadFile at h2
      rw [resolve_dbc he] at h2
      simp only [Bool.not_false, if_true, hk.keeps text hg, hu, t2] at h2
      cases h2
      rfl
    subst this
    refine same_forall₂ ?_ h3.messages t3
    intro m m' e hm
    refine ⟨e.frameId, e.isExtendedFrame, e.name, e.length, fun pattern msg hmsg => ?_⟩
    obtain ⟨msg', a, b, c⟩ := hm pattern msg hmsg
    exact ⟨msg', a, b, fun data decodeChoices scaling excess => c data decodeChoices scaling false excess⟩
  · obtain ⟨out, h1, db', h2, -⟩ := C59_convert_to_sym (U := U) (linesep := linesep) L h W hk hf hl he
    have C' : ∀ m ∈ (asSym db).messages, ∃ pattern msg, messageOf T pattern true m = .ok msg := by
      intro m hm
      obtain ⟨m', hm', rfl⟩ := List.mem_map.1 hm
      exact C m' hm'
    have hp' : ∀ m ∈ (asSym db).messages, ∀ s ∈ m.signals, s.isFloat = true → s.choices = none := by
      intro m hm
      obtain ⟨m', hm', rfl⟩ := List.mem_map.1 hm
      exact hp m' hm'
    obtain ⟨text, db'', t1, t2, l, hl', t3⟩ := C48_frames_survive (fo := fo) L W C' hp' (sort := sortByStartBit T)
      (fun l => sortedBy_perm _ l)
    have hu := sym_file hk L W (by rw [symTexts_asSym]; exact hf) hl t1
    rw [dumpString_asSym] at t1
    have : db'' = db' := by
      rw [convert_of (noStrict := false) h] at h1
      unfold dumpFile at h1
      rw [resolve_sym he] at h1
      simp only [if_neg (show "sym".toList ≠ "dbc".toList by decide), if_true, t1] at h1
      cases h1
      unfold loadFile at h2
      rw [resolve_sym he] at h2
      simp only [if_neg (show "sym".toList ≠ "dbc".toList by decide), if_true, hu, t2] at h2
      cases h2
      rfl
    subst this
    obtain ⟨l', hp'', rfl⟩ := perm_of_map hl'
    refine ⟨out, db'', h1, h2, l', hp'', ?_⟩
    rw [List.forall₂_map_left_iff] at t3
    exact t3.imp fun m m' hm => ⟨hm.1.frameId, hm.1.isExtendedFrame, hm.1.name, hm.1.length, hm.2⟩

/-- C59: no file of another format is written.  (KCD files are, but they are not modelled here.) -/
theorem C59_other_formats {U : Unicode} {linesep filename : Chars}
    (h : Load.extension filename ∉ ["dbc".toList, "sym".toList, "kcd".toList]) :
    dumpFile U T linesep encoding filename db = .error .error := by
  simp only [List.mem_cons, List.not_mem_nil, or_false, not_or] at h
  unfold dumpFile resolve
  simp only [h.1, h.2.1, or_self, if_false]
  cases encoding <;> rfl

example : Load.extension "car.arxml".toList ∉ ["dbc".toList, "sym".toList, "kcd".toList] := by decide +kernel

/-- C59: cp1252 has ASCII, the characters U+00A0 to U+00FF and 27 more. -/
theorem C59_cp1252 : Keeps cp1252 InCp1252 := cp1252_keeps

/-- C59: the bytes of cp1252. -/
theorem C59_cp1252_bytes :
    (∀ b : UInt8, b.toNat < 0x80 ∨ 0xa0 ≤ b.toNat → cp1252.decode [b] = [Char.ofNat b.toNat]) ∧
    cp1252.decode cp1252Codes = cp1252Extra ∧
    ∀ b : UInt8, 0x80 ≤ b.toNat → b.toNat < 0xa0 → b ∉ cp1252Codes → cp1252.decode [b] = ['\uFFFD'] := by
  have h1 : ∀ b : Fin 256, b.val < 0x80 ∨ 0xa0 ≤ b.val → cp1252Decode (UInt8.ofNat b.val) = Char.ofNat b.val := by decide +kernel
  have h3 : ∀ b : Fin 256, 0x80 ≤ b.val → b.val < 0xa0 → UInt8.ofNat b.val ∉ cp1252Codes →
      cp1252Decode (UInt8.ofNat b.val) = '\uFFFD' := by decide +kernel
  have e : ∀ b : UInt8, UInt8.ofNat b.toNat = b := fun b => by simp
  refine ⟨fun b h => ?_, by decide +kernel, fun b h h' hn => ?_⟩
  · have := h1 ⟨b.toNat, b.toNat_lt⟩ h
    rw [e] at this
    exact congrArg (fun c => [c]) this
  · have := h3 ⟨b.toNat, b.toNat_lt⟩ h h' (by rw [e]; exact hn)
    rw [e] at this
    exact congrArg (fun c => [c]) this

/-- C59: whatever is wrong with a file, `load_file` raises the exception that says that the file is not supported. -/
theorem C59_load_errors {T : FloatText F} {encoding : Option Files.Codec} {strict : Bool} {filename : Chars} {bytes : List UInt8}
    {e : Err} (h : loadFile T encoding strict filename bytes = .error e) : e = .error := by
  unfold loadFile at h
  generalize resolve encoding filename = r at h
  obtain ⟨format, codec⟩ := r
  cases codec with
  | none => exact (Except.error.inj h).symm
  | some codec =>
    dsimp only at h
    generalize (if format = "dbc".toList then Dbc.loadString T strict (universal (codec.decode bytes))
      else if format = "sym".toList then Sym.loadString T strict (universal (codec.decode bytes)) else .error .error) = r at h
    cases r with
    | ok _ => cases h
    | error _ => exact (Except.error.inj h).symm

example {T : FloatText F} : ∃ e, loadFile T (some cp1252) true "car.txt".toList [] = .error e := ⟨_, rfl⟩

/-- C59: UTF-8 has all characters. -/
theorem C59_utf8 {codec : Files.Codec} (he : codec.encode = String.utf8EncodeChar)
    (hd : ∀ (b : ByteArray) (t : Array Char), b.utf8Decode? = some t → codec.decode b.data.toList = t.toList) :
    Keeps codec fun _ => True where
  ascii _ _ := trivial
  keeps t _ := by
    have := hd t.utf8Encode t.toArray List.utf8Decode?_utf8Encode
    rw [he]
    simpa [List.utf8Encode] using this

end

/-! ### The hypotheses can be met -/

section Example59

/-- The file of a database, as it is written with default arguments on Windows. -/
def fileOf (filename : String) (db : DDatabase Int) : Except Err (List UInt8) :=
  dumpFile DbcExample.ascii halves ['\r', '\n'] none filename.toList db

theorem inCp1252 {texts : List Chars} (h : ∀ t ∈ texts, ∀ c ∈ t, c.toNat < 0x80 ∧ c ≠ '\r') : FineTexts InCp1252 texts :=
  fun t ht c hc => ⟨.inl (h t ht c hc).1, (h t ht c hc).2⟩

theorem example_dbc : FineTexts InCp1252 (dbcTexts DbcExample.db) := inCp1252 (by decide +kernel)

theorem example_asSym : asSym SymExample.db = SymExample.db := by decide +kernel

theorem example_sym : FineTexts InCp1252 (symTexts SymExample.db) := inCp1252 (by decide +kernel)

example := C59_dbc_file (encoding := none) halves_laws DbcExample.ascii_laws DbcExample.writable DbcExample.keptNames
  DbcExample.constructible C59_cp1252 example_dbc ['\n'] (filename := "a/b.DBC".toList) (other := "c.dbc".toList)
  (by decide +kernel) (by decide +kernel)

example := C59_sym_file (encoding := none) (U := DbcExample.ascii) halves_laws (example_asSym ▸ SymExample.symDatabase)
  SymExample.constructible false C59_cp1252 example_sym (linesep := ['\r', '\n']) (.inr (.inl rfl))
  (filename := "a/b.sym".toList) (other := "c.Sym".toList) (by decide +kernel) (by decide +kernel)

namespace FileExample

/-- A SYM file with Windows line ends and the character "°", as its bytes. -/
def file : List UInt8 :=
  (translate ['\r', '\n'] ("FormatVersion=6.0 // Do not edit this line!\nTitle=\"Car\"\n\n{ENUMS}\nEnum=Gears(0=\"N\", 1=\"D\")\n" ++
    "{SIGNALS}\nSig=Angle signed 11 -m /u:° /f:0.5 /max:500 /min:-500 // Grösse\nSig=Gear unsigned 3 /e:Gears\n" ++
    "{SEND}\n[Steering]\nID=123h // Sent often\nLen=8\nCycleTime=100\nSig=Gear 3\nSig=Angle 24\n").toList).map cp1252Encode

def angle : DSignal Int :=
  { name := "Angle".toList, start := 31, length := 11, byteOrder := .big, isSigned := true, scale := .float 1
    minimum := some (.int (-500)), maximum := some (.int 500), unit := some "°".toList, comment := some "Grösse".toList }
def gear : DSignal Int :=
  { name := "Gear".toList, start := 3, length := 3, choices := some [(0, "N".toList), (1, "D".toList)] }
def steering : DMessage Int :=
  { frameId := 0x123, name := "Steering".toList, length := 8, senders := [Sym.ecu], cycleTime := some (.int 100)
    comment := some "Sent often".toList, signals := [gear, angle] }
def db : DDatabase Int := { messages := [steering], version := some "6.0".toList }

theorem loaded : loadFile halves none true "car.sym".toList file = .ok db := by decide +kernel

theorem writable : WritableDatabase halves db := by
  have noAttrs : ∀ kind, WritableAttrs db.definitions kind [] :=
    fun _ => ⟨List.nodup_nil, fun _ h => (by cases h), fun _ h => (by cases h)⟩
  constructor
  case messages =>
    intro m hm
    simp only [db, List.mem_cons, List.not_mem_nil, or_false] at hm
    subst hm
    constructor
    case id => exact ⟨by decide, by decide⟩
    case name => decide +kernel
    case kept => decide +kernel
    case senders => decide +kernel
    case distinct => decide +kernel
    case comment => exact forall_some (by decide +kernel)
    case muxed =>
      refine ⟨by decide +kernel, by decide +kernel, by decide +kernel, ?_⟩
      have : ∀ s ∈ steering.signals.map (·.core halves), s.multiplexerSignal = none := by decide +kernel
      intro s hs n hn
      rw [this s hs] at hn
      cases hn
    case signals =>
      intro s hs
      simp only [steering, List.mem_cons, List.not_mem_nil, or_false] at hs
      rcases hs with rfl | rfl
      all_goals
        constructor
        case name => decide +kernel
        case float => decide +kernel
        case limits => decide +kernel
        case noZeros => decide +kernel
        case unit => exact forall_some (by decide +kernel)
        case receivers => decide +kernel
        case noVector => decide +kernel
        case comment => exact forall_some (by decide +kernel)
        case choices => exact forall_some (by decide +kernel)
        case ids => exact forall_some (by decide +kernel)
        case parent => exact forall_some (by decide +kernel)
        case attributes => exact noAttrs _
        case spn => exact rfl
        case initial => rintro n ⟨⟩
    case groups => rintro g ⟨⟩
    case attributes => exact noAttrs _
    case sendType => exact rfl
    case cycleTime =>
      rintro n ⟨⟩
      exact ⟨by decide +kernel, .inl ⟨_, rfl, by unfold SmallInt; decide⟩⟩
    case format => exact ⟨.inl rfl, rfl, rfl⟩
    case bus => rfl
  case ids => decide +kernel
  case names => decide +kernel
  case nodes => intro n hn; cases hn
  case nodeNames => decide +kernel
  case version => decide +kernel
  case buses => exact .inl ⟨rfl, rfl⟩
  case attributes => exact noAttrs _
  case definitions => intro n hn; cases hn
  case definitionNames => decide +kernel
  case cycleTime => rintro d ⟨⟩
  case startValue => rintro d ⟨⟩
  case baudrate => rintro d ⟨⟩
  case format => rintro d ⟨⟩
  case envvars => intro n hn; cases hn
  case envvarNames => decide +kernel
  case tables => intro n hn; cases hn
  case tableNames => decide +kernel

theorem keptNames : KeptNames db where
  node := by rintro d ⟨⟩
  message := by rintro d ⟨⟩
  signal := by rintro d ⟨⟩
  envvar := by rintro d ⟨⟩
  nodes := by decide
  senders := by decide +kernel
  receivers := by decide +kernel
  selectors := by
    have : ∀ m ∈ db.messages, ∀ s ∈ m.signals, ∀ n ∈ s.multiplexerSignal, n.length ≤ 32 := by decide +kernel
    exact this

theorem asSym_db : asSym db = db := by decide +kernel

theorem symDatabase : SymDatabase halves db where
  messages := by
    intro m hm
    simp only [db, List.mem_cons, List.not_mem_nil, or_false] at hm
    subst hm
    constructor
    case id => exact ⟨by decide, by decide⟩
    case name => decide +kernel
    case comment => exact forall_some (by decide +kernel)
    case cycleTime => exact forall_some (by decide +kernel)
    case senders => decide +kernel
    case nodup => decide +kernel
    case mux => exact .inl (by unfold Plain; decide +kernel)
    case signals =>
      intro s hs
      simp only [steering, List.mem_cons, List.not_mem_nil, or_false] at hs
      rcases hs with rfl | rfl
      all_goals
        constructor
        case name => decide +kernel
        case short => decide +kernel
        case float => decide +kernel
        case unit => exact forall_some (by decide +kernel)
        case comment => exact forall_some (by decide +kernel)
        case choices => exact forall_some (by decide +kernel)
        case spn => rintro v ⟨⟩
  names := by unfold Plain; decide +kernel
  ranges := by
    intro m hm
    simp only [db, List.mem_cons, List.not_mem_nil, or_false] at hm
    subst hm
    exact ⟨0x123, 1, by decide +kernel⟩
  signals := by decide +kernel
  enums := by
    intro m hm s hs m' hm' s' hs' cs cs' h h' he
    have key : ∀ s ∈ db.messages.flatMap (·.signals), ∀ s' ∈ db.messages.flatMap (·.signals), s.choices ≠ none →
      s'.choices ≠ none → enumStem s'.name = enumStem s.name → s'.choices = s.choices := by decide +kernel
    have := key s (List.mem_flatMap.2 ⟨m, hm, hs⟩) s' (List.mem_flatMap.2 ⟨m', hm', hs'⟩) (by simp [h]) (by simp [h']) he
    rw [h, h'] at this
    exact Option.some.inj this

theorem fine (texts : List Chars) (h : ∀ t ∈ texts, ∀ c ∈ t, (c.toNat < 0x80 ∨ 0xa0 ≤ c.toNat ∧ c.toNat ≤ 0xff) ∧ c ≠ '\r') :
    FineTexts InCp1252 texts := fun t ht c hc => ⟨(h t ht c hc).1.imp_right .inl, (h t ht c hc).2⟩

theorem fine_dbc : FineTexts InCp1252 (dbcTexts db) := fine _ (by decide +kernel)
theorem fine_sym : FineTexts InCp1252 (symTexts db) := fine _ (by decide +kernel)

end FileExample

example := C59_convert_to_dbc (encoding := none) halves_laws DbcExample.ascii_laws (linesep := ['\n']) (noStrict := false)
  FileExample.loaded FileExample.writable FileExample.keptNames C59_cp1252 FileExample.fine_dbc
  (outfile := "car.dbc".toList) (by decide +kernel)

example := C59_convert_to_sym (encoding := none) (U := DbcExample.ascii) halves_laws FileExample.loaded
  (FileExample.asSym_db ▸ FileExample.symDatabase) C59_cp1252 FileExample.fine_sym (linesep := ['\r']) (.inr (.inr rfl))
  (outfile := "new.sym".toList) (by decide +kernel)

example := C59_convert_frames (encoding := none) (fo := Example.fo) halves_laws DbcExample.ascii_laws FileExample.loaded
  C59_cp1252 (by unfold NoNamedFloats; decide +kernel) (linesep := ['\n']) (.inl rfl) (outfile := "car.dbc".toList)
  (.inl ⟨by decide +kernel, FileExample.writable, FileExample.keptNames, FileExample.fine_dbc⟩)

/-- Python's UTF-8, up to what it does with bytes that are no UTF-8. -/
noncomputable def utf8 : Files.Codec where
  encode := String.utf8EncodeChar
  decode bytes := ((ByteArray.mk bytes.toArray).utf8Decode?.map (·.toList)).getD []

example : Keeps utf8 fun _ => True := C59_utf8 rfl fun b t h => by
  unfold utf8
  simp only [Array.toArray_toList]
  rw [show (ByteArray.mk b.data) = b from rfl, h]
  rfl

end Example59

/-! ### What files and conversions do not keep -/

section Witness59

/-- The database that is read from the file that is written for one. -/
def throughFile (filename : String) (linesep : Chars) (db : DDatabase Int) : Except Err (DDatabase Int) := do
  let bytes ← dumpFile DbcExample.ascii halves linesep none filename.toList db
  loadFile halves none true filename.toList bytes

/-- Characters that cp1252 does not have become question marks, and carriage returns become ends of lines. -/
theorem C59_characters_not_kept :
    (throughFile "a.dbc" ['\n'] (small { sig1 with unit := some "kΩ".toList, comment := some "one\r\ntwo\rthree".toList })).map
      (ofSignals fun s => (s.unit, s.comment)) = .ok [(some "k?".toList, some "one\ntwo\nthree".toList)] := by decide +kernel

/-- A conversion to SYM makes the senders "ECU" and "Peripherals" of all others. -/
theorem C59_senders_not_kept :
    (do
      let db ← throughFile "a.dbc" ['\n'] (oneMessage { msg1 with senders := ["Gateway".toList] })
      let db' ← throughFile "a.sym" ['\n'] db
      return (ofMessages (·.senders) db, ofMessages (·.senders) db') : Except Err _) =
    .ok ([["Gateway".toList]], [[Sym.ecu, Sym.peripherals]]) := by decide +kernel

/-- Encodings have to agree: what is written in cp1252 and read in another encoding is not the same. -/
theorem C59_encodings_differ :
    let latin2 : Files.Codec := { cp1252 with decode := fun b => b.map fun x => if x = 0xb9 then 'š' else cp1252Decode x }
    (do
      let bytes ← dumpFile DbcExample.ascii halves ['\n'] none "a.dbc".toList (small { sig1 with unit := some "m¹".toList })
      let db ← loadFile halves (some latin2) true "a.dbc".toList bytes
      return ofSignals (·.unit) db : Except Err _) = .ok [some "mš".toList] := by decide +kernel

end Witness59

end Cantools
