import Verif.Props.EcuExtract
import Verif.Lemmas.EcuExtractRead

/-
C63: a document that meets the hypotheses, and documents that describe messages which the loader does
not understand.
-/

namespace Cantools
open Kcd (Xml)
open Spec Spec.Extract
open Extract (load)

namespace Extract.Example

def node (tag : String) (c : List Xml) : Xml := .elem tag [] none c
def leaf (tag text : String) : Xml := .elem tag [] (some text) []
def named (tag name : String) (c : List Xml) : Xml := node tag (leaf "SHORT-NAME" name :: c)

/-- A parameter. -/
def param (path value : String) : Xml :=
  node "ECUC-NUMERICAL-PARAM-VALUE" [leaf "DEFINITION-REF" path, leaf "VALUE" value]

/-- A reference. -/
def ref (path value : String) : Xml :=
  node "ECUC-REFERENCE-VALUE" [leaf "DEFINITION-REF" path, leaf "VALUE-REF" value]

/-- A container. -/
def box (name definition : String) (params refs sub : List Xml) : Xml :=
  named "ECUC-CONTAINER-VALUE" name [leaf "DEFINITION-REF" definition, node "PARAMETER-VALUES" params,
    node "REFERENCE-VALUES" refs, node "SUB-CONTAINERS" sub]

def signal (name position size order type : String) : Xml :=
  box name "/Com/ComConfig/ComSignal" [param "/Com/ComConfig/ComSignal/ComBitPosition" position,
    param "/Com/ComConfig/ComSignal/ComBitSize" size, param "/Com/ComConfig/ComSignal/ComSignalEndianness" order,
    param "/Com/ComConfig/ComSignal/ComSignalType" type] [] []

def pdu (name direction pdu : String) (refs : List Xml) : Xml :=
  box name "/Com/ComConfig/ComIPdu" [param "/Com/ComConfig/ComIPdu/ComIPduType" "NORMAL",
    param "/Com/ComConfig/ComIPdu/ComIPduDirection" direction] (ref "/Com/ComConfig/ComIPdu/ComPduIdRef" pdu :: refs) []

def has (signal : String) : Xml := ref "/Com/ComConfig/ComIPdu/ComIPduSignalRef" signal

def config (name kind id len type pdu : String) : Xml :=
  box name ("/CanIf/CanIfInitCfg/" ++ kind ++ "Cfg") [param (kind ++ "/" ++ kind ++ "CanId") id,
    param (kind ++ "/" ++ kind ++ "Dlc") len, param (kind ++ "/" ++ kind ++ "CanIdType") type]
    [ref (kind ++ "/" ++ kind ++ "Ref") pdu] []

def modul (name config : String) (sub : List Xml) : Xml :=
  named "ECUC-MODULE-CONFIGURATION-VALUES" name [node "CONTAINERS" [named "ECUC-CONTAINER-VALUE" config
    [node "SUB-CONTAINERS" sub]]]

def packages (c : List Xml) : Xml := node "AR-PACKAGES" c

def collection (com canIf : String) : Xml :=
  named "ECUC-VALUE-COLLECTION" "All" [node "ECUC-VALUES"
    [node "ECUC-MODULE-CONFIGURATION-VALUES-REF-CONDITIONAL" [leaf "ECUC-MODULE-CONFIGURATION-VALUES-REF" canIf],
     node "ECUC-MODULE-CONFIGURATION-VALUES-REF-CONDITIONAL" [leaf "ECUC-MODULE-CONFIGURATION-VALUES-REF" com]]]

/-- An extract with both modules in the package `E`. -/
def extract (com canIf : List Xml) : Xml :=
  node "AUTOSAR" [packages [named "AR-PACKAGE" "E" [node "ELEMENTS" [collection "/E/Com" "/E/CanIf",
    modul "Com" "ComConfig" com, modul "CanIf" "CanIfInitCfg" canIf]]]]

/-- Two messages: `Speed` is sent, `Door` is received; `Other` is a group of PDUs. -/
def doc : Xml :=
  extract
    [pdu "Speed" "SEND" "/E/EcuC/Pdus/P1" [has "/E/Com/ComConfig/Level", has "/E/Com/ComConfig/Torque"],
     box "Other" "/Com/ComConfig/ComIPduGroup" [] [] [],
     pdu "Door" "RECEIVE" "/E/EcuC/Pdus/P2" [has "/E/Com/ComConfig/Ratio"],
     signal "Level" "0" "8" "LITTLE_ENDIAN" "UINT8",
     signal "Torque" "15" "16" "BIG_ENDIAN" "SINT16",
     signal "Ratio" "0" "32" "LITTLE_ENDIAN" "FLOAT32"]
    [config "c1" "CanIfTxPdu" "291" "4" "STANDARD_CAN" "/E/EcuC/Pdus/P1",
     box "h" "/CanIf/CanIfInitCfg/CanIfInitHohCfg" [] [] [],
     config "c2" "CanIfRxPdu" "305419896" "8" "EXTENDED_CAN" "/E/EcuC/Pdus/P2"]

def docMessages : List MessageContent :=
  [{ name := "Speed", frameId := 291, idType := "STANDARD_CAN", length := 4, pdu := ["E", "EcuC", "Pdus", "P1"], groups := []
     signals := [{ name := "Level", start := 0, length := 8, big := false, type := "UINT8" },
       { name := "Torque", start := 15, length := 16, big := true, type := "SINT16" }] },
   { name := "Door", frameId := 305419896, idType := "EXTENDED_CAN", length := 8, pdu := ["E", "EcuC", "Pdus", "P2"], groups := []
     signals := [{ name := "Ratio", start := 0, length := 32, big := false, type := "FLOAT32" }] }]

theorem doc_describes : Describes doc ["E"] ["E"] docMessages := Read.messages_sound (by decide +kernel)

instance (q : String) (m : MessageContent) : Decidable (Understood q m) := by unfold Understood; infer_instance

theorem doc_understood : ∀ m ∈ docMessages, Understood "E" m := by decide +kernel

/-- What a message says, for comparisons. -/
structure Summary where
  name : String
  frameId : Int
  extended : Bool
  length : Nat
  signals : List Signal
  deriving DecidableEq

def summary (m : Message) : Summary := ⟨m.name, m.frameId, m.isExtendedFrame, m.length, m.signals⟩

/-- A result that can be compared. -/
def outcome (r : Except Err (List Message)) : Except Err (List Summary) := r.map (·.map summary)

theorem outcome_error {r : Except Err (List Message)} {e : Err} (h : outcome r = .error e) : r = .error e := by
  cases r with
  | error e' => cases h; rfl
  | ok l => cases h

theorem outcome_nil {r : Except Err (List Message)} (h : outcome r = .ok []) : r = .ok [] := by
  cases r with
  | error e => cases h
  | ok l => cases l with
    | nil => rfl
    | cons _ _ => exact absurd (Except.ok.inj h) (by simp)

theorem outcome_one {r : Except Err (List Message)} {t} (h : outcome r = .ok [t]) : ∃ o, r = .ok [o] ∧ summary o = t := by
  cases r with
  | error e => cases h
  | ok l =>
    have h := Except.ok.inj h
    match l, h with
    | [o], h => exact ⟨o, rfl, (List.cons.inj h).1⟩
    | [], h => exact absurd h (by simp)
    | _ :: _ :: _, h => exact absurd h (by simp)

theorem doc_loads : outcome (load doc true .default) = .ok
    [⟨"Speed", 291, false, 4, [{ name := "Level", start := 0, length := 8 },
       { name := "Torque", start := 15, length := 16, byteOrder := .big, isSigned := true }]⟩,
     ⟨"Door", 305419896, true, 8, [{ name := "Ratio", start := 0, length := 32, conversion := .base (.identity true) }]⟩] := by
  decide +kernel

end Extract.Example

open Extract.Example

/-- The hypotheses of `C63_messages_partial` and `C63_decode_partial` are met. -/
example : ∃ out, load doc true .default = .ok out ∧ out.length = 2 ∧ Describes doc ["E"] ["E"] docMessages ∧
    (∀ m ∈ docMessages, Understood "E" m) ∧ ∀ m ∈ docMessages, (m.all.map (·.name)).Nodup := by
  cases h : load doc true .default with
  | error e =>
    have := doc_loads
    rw [h] at this
    cases this
  | ok out =>
    refine ⟨out, rfl, ?_, doc_describes, doc_understood, by decide +kernel⟩
    have := doc_loads
    rw [h] at this
    have h2 := congrArg List.length (Except.ok.inj this)
    simpa using h2

namespace Extract.Example

/-- A message that is longer than its frame. -/
def tooLong : Xml :=
  extract [pdu "Speed" "SEND" "/E/P1" [has "/E/Com/ComConfig/Level"], signal "Level" "0" "16" "LITTLE_ENDIAN" "UINT16"]
    [config "c1" "CanIfTxPdu" "291" "1" "STANDARD_CAN" "/E/P1"]

def tooLongMessages : List MessageContent :=
  [{ name := "Speed", frameId := 291, idType := "STANDARD_CAN", length := 1, pdu := ["E", "P1"], groups := []
     signals := [{ name := "Level", start := 0, length := 16, big := false, type := "UINT16" }] }]

end Extract.Example

/-- The hypotheses of `C63_rejects_partial` are met by a document that is rejected. -/
example : Describes tooLong ["E"] ["E"] tooLongMessages ∧ (∀ m ∈ tooLongMessages, Understood "E" m) ∧
    load tooLong true .default = .error .error :=
  ⟨Extract.Read.messages_sound (by decide +kernel), by decide +kernel, outcome_error (by decide +kernel)⟩

/-- A document whose collection names two modules, of which none is `Com`. -/
example : load (.elem "AUTOSAR" [] none [Extract.Example.packages [Extract.Example.node "AR-PACKAGE"
    [Extract.Example.node "ELEMENTS" [Extract.Example.collection "/E/Comm" "/E/CanIf"]]]]) true .default =
    .error .valueError :=
  C63_module_needed (coll := Extract.Example.collection "/E/Comm" "/E/CanIf") (rest := [])
    (refs := ["/E/CanIf", "/E/Comm"]) rfl (.cons rfl (.cons rfl .nil)) (by decide +kernel) _ _

namespace Extract.Example

def one (signals : List Xml) (refs : List Xml) (id type : String) : Xml :=
  extract (pdu "Speed" "SEND" "/E/P1" refs :: signals) [config "c1" "CanIfTxPdu" id "8" type "/E/P1"]

def oneMessage (signals : List SignalContent) (groups : List (List SignalContent)) (id : Nat) (type : String) : MessageContent :=
  { name := "Speed", frameId := id, idType := type, length := 8, pdu := ["E", "P1"], signals, groups }

end Extract.Example

/-- C63, false: a signed number of 64 bits is read as an unsigned number. -/
theorem C63_signed64_fails : ∃ root m, Describes root ["E"] ["E"] [m] ∧ m.pdu.head? = some "E" ∧ m.groups = [] ∧
    m.extended = false ∧ ∃ o, load root true .default = .ok [o] ∧ ∃ s ∈ m.signals, s.signed = true ∧ ∃ t ∈ o.signals,
      t.name = s.name ∧ t.isSigned = false := by
  let root := one [signal "Level" "0" "64" "LITTLE_ENDIAN" "SINT64"] [has "/E/Com/ComConfig/Level"] "5" "STANDARD_CAN"
  let s : SignalContent := { name := "Level", start := 0, length := 64, big := false, type := "SINT64" }
  refine ⟨root, oneMessage [s] [] 5 "STANDARD_CAN", Extract.Read.messages_sound (by decide +kernel), rfl, rfl, by decide, ?_⟩
  obtain ⟨o, ho, h⟩ := outcome_one (r := load root true .default)
    (t := ⟨"Speed", 5, false, 8, [{ name := "Level", start := 0, length := 64 }]⟩) (by decide +kernel)
  have h3 : o.signals = [{ name := "Level", start := 0, length := 64 }] := congrArg (fun t => t.signals) h
  exact ⟨o, ho, s, by simp [oneMessage], by decide, { name := "Level", start := 0, length := 64 }, by rw [h3]; simp, rfl, rfl⟩

/-- C63, false: the signals of signal groups are missing. -/
theorem C63_groups_fail : ∃ root m, Describes root ["E"] ["E"] [m] ∧ m.pdu.head? = some "E" ∧ m.all.length = 2 ∧
    m.extended = false ∧ ∃ o, load root true .default = .ok [o] ∧ o.signals = [] := by
  let a : SignalContent := { name := "A", start := 0, length := 8, big := false, type := "UINT8" }
  let b : SignalContent := { name := "B", start := 8, length := 8, big := false, type := "UINT8" }
  let root := one [box "Group" "/Com/ComConfig/ComSignalGroup" [] []
      [signal "A" "0" "8" "LITTLE_ENDIAN" "UINT8", signal "B" "8" "8" "LITTLE_ENDIAN" "UINT8"]]
    [ref "/Com/ComConfig/ComIPdu/ComIPduSignalGroupRef" "/E/Com/ComConfig/Group"] "5" "STANDARD_CAN"
  refine ⟨root, oneMessage [] [[a, b]] 5 "STANDARD_CAN", Extract.Read.messages_sound (by decide +kernel), rfl, rfl, by decide, ?_⟩
  obtain ⟨o, ho, h⟩ := outcome_one (r := load root true .default) (t := ⟨"Speed", 5, false, 8, []⟩) (by decide +kernel)
  exact ⟨o, ho, congrArg (fun t => t.signals) h⟩

/-- C63, false: an extract with a CAN FD frame whose identifier has 29 bits is rejected, or the
identifier gets 11 bits. -/
theorem C63_fd_fails :
    (∃ root m, Describes root ["E"] ["E"] [m] ∧ m.pdu.head? = some "E" ∧ m.groups = [] ∧ m.all = [] ∧ m.extended = true ∧
      m.frameId < 2 ^ 29 ∧ load root true .default = .error .error) ∧
    ∃ root m, Describes root ["E"] ["E"] [m] ∧ m.pdu.head? = some "E" ∧ m.groups = [] ∧ m.extended = true ∧
      ∃ o, load root true .default = .ok [o] ∧ o.isExtendedFrame = false := by
  refine ⟨⟨one [] [] "305419896" "EXTENDED_FD_CAN", oneMessage [] [] 305419896 "EXTENDED_FD_CAN",
    Extract.Read.messages_sound (by decide +kernel), rfl, rfl, rfl, by decide, by decide, outcome_error (by decide +kernel)⟩, ?_⟩
  refine ⟨one [] [] "5" "EXTENDED_FD_CAN", oneMessage [] [] 5 "EXTENDED_FD_CAN",
    Extract.Read.messages_sound (by decide +kernel), rfl, rfl, by decide, ?_⟩
  obtain ⟨o, ho, h⟩ := outcome_one (r := load (one [] [] "5" "EXTENDED_FD_CAN") true .default) (t := ⟨"Speed", 5, false, 8, []⟩)
    (by decide +kernel)
  exact ⟨o, ho, congrArg (fun t => t.extended) h⟩

/-- C63, false: a message whose PDU is in another package than `CanIf` is missing. -/
theorem C63_package_fails : ∃ root m, Describes root ["E"] ["E"] [m] ∧ m.idType = "STANDARD_CAN" ∧ m.all = [] ∧
    load root true .default = .ok [] := by
  refine ⟨extract [pdu "Speed" "SEND" "/Shared/P1" []] [config "c1" "CanIfTxPdu" "5" "8" "STANDARD_CAN" "/Shared/P1"],
    { oneMessage [] [] 5 "STANDARD_CAN" with pdu := ["Shared", "P1"] }, Extract.Read.messages_sound (by decide +kernel), rfl, rfl, ?_⟩
  exact outcome_nil (by decide +kernel)

/-- C63, false: an extract whose modules are in a package inside of a package cannot be loaded. -/
theorem C63_nested_fails : ∃ root m, Describes root ["Car", "E"] ["Car", "E"] [m] ∧ m.idType = "STANDARD_CAN" ∧ m.all = [] ∧
    load root true .default = .error .typeError := by
  refine ⟨node "AUTOSAR" [packages [named "AR-PACKAGE" "Car" [
      node "ELEMENTS" [collection "/Car/E/Com" "/Car/E/CanIf"],
      packages [named "AR-PACKAGE" "E" [node "ELEMENTS"
        [modul "Com" "ComConfig" [pdu "Speed" "SEND" "/Car/E/P1" []],
         modul "CanIf" "CanIfInitCfg" [config "c1" "CanIfTxPdu" "5" "8" "STANDARD_CAN" "/Car/E/P1"]]]]]]],
    { oneMessage [] [] 5 "STANDARD_CAN" with pdu := ["Car", "E", "P1"] }, Extract.Read.messages_sound (by decide +kernel), rfl, rfl,
    outcome_error (by decide +kernel)⟩

end Cantools
