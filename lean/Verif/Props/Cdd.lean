import Verif.Lemmas.Cdd
import Verif.Props.Did

/-!
Properties of CDD files and diagnostic databases: C52.
-/

namespace Cantools

open Kcd (Xml NumText)
open Spec

namespace Cdd

theorem loaded_offset {os : List CddObject} {fs : List CddField} (h : List.Forall₂ FieldLoaded os fs)
    (i : Nat) : fieldOffset fs i = objectOffset os i := by
  unfold fieldOffset objectOffset
  induction h generalizing i with
  | nil => simp
  | cons h1 _ ih =>
    cases i with
    | zero => rfl
    | succ i => simp only [List.take_succ_cons, List.map_cons, List.sum_cons, h1.bits, ih i]

theorem loaded_get {os : List CddObject} {fs : List CddField} (h : List.Forall₂ FieldLoaded os fs)
    {i : Nat} {f : CddField} (hf : fs[i]? = some f) : ∃ o, os[i]? = some o ∧ FieldLoaded o f := by
  induction h generalizing i with
  | nil => simp at hf
  | cons h1 _ ih =>
    cases i with
    | zero =>
      obtain rfl : _ = f := by simpa using hf
      exact ⟨_, rfl, h1⟩
    | succ i => exact ih (by simpa using hf)

theorem loaded_get' {os : List CddObject} {fs : List CddField} (h : List.Forall₂ FieldLoaded os fs)
    {i : Nat} {o : CddObject} (ho : os[i]? = some o) : ∃ f, fs[i]? = some f ∧ FieldLoaded o f := by
  induction h generalizing i with
  | nil => simp at ho
  | cons h1 _ ih =>
    cases i with
    | zero =>
      obtain rfl : _ = o := by simpa using ho
      exact ⟨_, rfl, h1⟩
    | succ i => exact ih (by simpa using ho)

/-- What is known of a loaded DID: it is laid out as in C25. -/
theorem loadDid_says {T : NumText} {doc x : Xml} {c : CddDid} (h : DidSays T doc x c)
    (hsup : ∀ o ∈ c.objects, SupportedType o.type) (hord : PartsOrdered x)
    {types : List (String × DataType)} {lib : List (String × Xml)}
    (ht : ∀ x ∈ typeDefs doc, ∀ i, x.attr? "id" = some i →
      ∃ d, dictGet? types i = some d ∧ loadDataType T x = .ok d)
    (hlib : ∀ d ∈ sharedDids doc, ∀ i, d.attr? "id" = some i → dictGet? lib i = some d)
    (hnd : ((sharedDids doc).map fun d => d.attr? "id").Nodup) :
    ∃ fs, loadDid types lib x = .ok (loadDidElement c.identifier c.name fs) ∧
      List.Forall₂ FieldLoaded c.objects fs := by
  obtain ⟨v, s, hv, hs, hi⟩ := h.identifier
  obtain ⟨q, hq, hn⟩ := h.name
  have hobj := dataObjects_says hlib hnd h.known hord
  obtain ⟨fs, h1, h2⟩ : ∃ fs, ((didParts x).flatMap (standsFor doc)).mapM (loadField types) = .ok fs ∧
      List.Forall₂ FieldLoaded c.objects fs := by
    have := h.objects
    generalize (didParts x).flatMap (standsFor doc) = xs at this
    generalize c.objects = os at this hsup
    induction this with
    | nil => exact ⟨[], rfl, .nil⟩
    | @cons a o xs os h1 _ ih =>
      obtain ⟨f, hf, hf'⟩ := loadField_says h1 (hsup o (by simp)) ht
      obtain ⟨fs, hfs, hfs'⟩ := ih fun o ho => hsup o (List.mem_cons_of_mem _ ho)
      refine ⟨f :: fs, ?_, .cons hf' hfs'⟩
      rw [List.mapM_cons, hf, hfs]
      rfl
  refine ⟨fs, ?_, h2⟩
  unfold loadDid
  rw [hobj]
  refine (bind_of_ok h1).trans ?_
  rw [find_kids, hv]
  dsimp only [List.head?_cons]
  rw [attrib_some hs, text_one hq hn]
  refine (bind_of_ok (rfl : (Except.ok s : Except Err String) = .ok s)).trans ?_
  refine (bind_of_ok (readInt_decimal hi)).trans ?_
  rfl

theorem load_says {T : NumText} {root doc : Xml} {dids : List CddDid} (h : CddSays T root doc dids)
    (hsup : ∀ d ∈ dids, ∀ o ∈ d.objects, SupportedType o.type)
    (hord : ∀ x ∈ instances doc, PartsOrdered x) :
    ∃ loaded, load T root = .ok loaded ∧ List.Forall₂ (fun c d => ∃ fs,
      d = loadDidElement c.identifier c.name fs ∧ List.Forall₂ FieldLoaded c.objects fs) dids loaded := by
  obtain ⟨types, h1, ht⟩ := loadDataTypes_says h.types h.typeIds
  obtain ⟨lib, h2, hlib⟩ := loadRefs_says h.shared h.sharedId h.sharedIds
  obtain ⟨loaded, h3, h4⟩ : ∃ loaded, (instances doc).mapM (loadDid types lib) = .ok loaded ∧
      List.Forall₂ (fun c d => ∃ fs, d = loadDidElement c.identifier c.name fs ∧
        List.Forall₂ FieldLoaded c.objects fs) dids loaded := by
    have := h.dids
    have hids := h.sharedIds
    generalize instances doc = xs at this hord
    clear h
    induction this with
    | nil => exact ⟨[], rfl, .nil⟩
    | @cons a c xs os g1 _ ih =>
      obtain ⟨fs, hf, hf'⟩ := loadDid_says g1 (hsup c (by simp)) (hord a (by simp)) ht hlib hids
      obtain ⟨ds, hds, hds'⟩ := ih (fun d hd => hsup d (List.mem_cons_of_mem _ hd))
        (fun x hx => hord x (List.mem_cons_of_mem _ hx))
      refine ⟨_ :: ds, ?_, .cons ⟨fs, rfl, hf'⟩ hds'⟩
      rw [List.mapM_cons, hf, hds]
      rfl
  refine ⟨loaded, ?_, h4⟩
  unfold load
  rw [find_kids, h.document]
  dsimp only [List.head?_cons]
  refine (bind_of_ok h1).trans ?_
  refine (bind_of_ok h2).trans ?_
  rw [findAll_kids]
  have hv := h.variant
  unfold firstVariant at hv
  match hk : kids doc "ECU" with
  | [] => rw [hk] at hv; exact absurd rfl hv
  | ecu :: r =>
    dsimp only
    rw [find_kids]
    match hk' : kids ecu "VAR" with
    | [] => rw [hk] at hv; simp [hk'] at hv
    | var :: r' =>
      dsimp only [List.head?_cons]
      have : instances doc = findPath var ["DIAGCLASS", "DIAGINST"] := by
        unfold instances firstVariant
        rw [hk, findPath_two]
        simp [hk']
      rw [← this]
      exact h3

end Cdd

open Cdd

/-- C52 (partial): the DIDs of a CDD file are loaded with their identifiers and names, their data
objects in order, with the number of bits, byte order, unit, scaling and names of the data types;
the length is the number of bytes the objects need.  Missing: signed numbers, fields of several
elements, names for ranges, and parts in another order, for which it is false (see below). -/
theorem C52_load_partial {T : NumText} {root doc : Xml} {dids : List CddDid}
    (h : CddSays T root doc dids) (hsup : ∀ d ∈ dids, ∀ o ∈ d.objects, SupportedType o.type)
    (hord : ∀ x ∈ instances doc, PartsOrdered x) :
    ∃ loaded, load T root = .ok loaded ∧ List.Forall₂ DidLoaded dids loaded := by
  obtain ⟨loaded, h1, h2⟩ := load_says h hsup hord
  refine ⟨loaded, h1, h2.imp ?_⟩
  rintro c d ⟨fs, rfl, hfs⟩
  refine ⟨rfl, rfl, ?_, ?_⟩
  · rw [List.forall₂_iff_get]
    have hlen : c.objects.length = (loadDidElement c.identifier c.name fs).datas.length := by
      rw [hfs.length_eq]
      have key : ∀ (fs : List CddField) (o : Nat), fs.length = (loadDatas o fs).1.length := by
        intro fs
        induction fs with
        | nil => intro o; rfl
        | cons f r ih => intro o; simp [loadDatas, ← ih]
      exact key fs 0
    refine ⟨hlen, ?_⟩
    intro i hi hi'
    simp only [List.get_eq_getElem]
    obtain ⟨f, hf, hl⟩ := loaded_get' hfs (List.getElem?_eq_getElem hi)
    have hx : (loadDidElement c.identifier c.name fs).datas[i]? =
        some (loadDataElement f (0 + fieldOffset fs i)) := by
      simp only [loadDidElement]
      rw [loadDatas_get, hf]
      rfl
    rw [List.getElem?_eq_getElem hi'] at hx
    rw [Option.some.inj hx]
    exact ⟨hl.name, hl.bits, hl.order, hl.unit, hl.shows_⟩
  · have h3 := C25_cdd_length c.identifier c.name fs
    have h4 := loaded_offset hfs fs.length
    rw [← hfs.length_eq] at h4
    unfold fieldOffset at h4
    rw [hfs.length_eq, List.take_length] at h4
    rw [hfs.length_eq, ← h4]
    exact h3

/-- The value shown for a number is unique. -/
theorem Cdd.shows_unique {t : CddType} (h : SupportedType t) {raw : Int} {v v' : Value}
    (h1 : ObjectShows t raw v) (h2 : ObjectShows t raw v') : v = v' := by
  rcases h1 with ⟨l, hl, a, b, rfl⟩ | ⟨hn, rfl⟩ <;> rcases h2 with ⟨l', hl', a', b', rfl⟩ | ⟨hn', rfl⟩
  · have e1 := h.labels l hl
    have e2 := h.labels l' hl'
    have : l = l' := List.inj_on_of_nodup_map h.unique hl hl' (by omega)
    rw [this]
  · exact absurd ⟨a, b⟩ (hn' l hl)
  · exact absurd ⟨a', b'⟩ (hn l' hl')
  · rfl

theorem Cdd.bitPos_object (f : CddField) {o : Nat} (ha : Addressable o f.bitLength f.byteOrder) {j : Nat}
    (hj : j < f.bitLength) :
    bitPos (loadDataElement f o).toSignal j = objectBit o f.bitLength f.byteOrder j := by
  cases hb : f.byteOrder with
  | little =>
    rw [bitPos_little (by simpa [loadDataElement, Data.toSignal] using hb)]
    simp [loadDataElement, Data.toSignal, hb, cddOffsetToDbcStartBit, objectBit]
  | big =>
    have hbig : (loadDataElement f o).toSignal.byteOrder = .big := by
      simpa [loadDataElement, Data.toSignal] using hb
    apply net_inj
    rw [bitPos_big hbig (by simpa [loadDataElement, Data.toSignal] using hj), startBit_big hbig]
    simp only [loadDataElement, Data.toSignal, hb, cddOffsetToDbcStartBit, objectBit]
    rw [hb] at ha
    unfold Addressable at ha
    simp only [reduceCtorEq, false_or] at ha
    generalize f.bitLength = n at *
    unfold net
    split <;> omega

theorem Cdd.readsAs_object (f : CddField) {o : Nat} (ha : Addressable o f.bitLength f.byteOrder)
    (data : Bytes) (v : Int) :
    ReadsAs (loadDataElement f o).toSignal data v ↔
      ∃ raw : Nat, v = raw ∧ raw < 2 ^ f.bitLength ∧ ∀ j, j < f.bitLength →
        payloadBit data (objectBit o f.bitLength f.byteOrder j) = raw.testBit j := by
  have hbit : ∀ (raw j : Nat), intBit (raw : Int) j = raw.testBit j := by
    intro raw j
    unfold intBit
    rw [Nat.testBit_eq_decide_div_mod_eq]
    congr 1
    have : ((raw : Int) / 2 ^ j) % 2 = ((raw / 2 ^ j % 2 : Nat) : Int) := by push_cast; rfl
    rw [this]
    exact propext ⟨fun h => by omega, fun h => by omega⟩
  unfold ReadsAs InRange
  have hlen : (loadDataElement f o).toSignal.length = f.bitLength := rfl
  have hs : (loadDataElement f o).toSignal.isSigned = false := rfl
  rw [hlen, hs]
  simp only [Bool.false_eq_true, if_false]
  constructor
  · rintro ⟨⟨h0, h1⟩, h2⟩
    obtain ⟨raw, rfl⟩ := Int.eq_ofNat_of_zero_le h0
    refine ⟨raw, rfl, by exact_mod_cast h1, fun j hj => ?_⟩
    rw [← bitPos_object f ha hj, h2 j hj, hbit]
  · rintro ⟨raw, rfl, h1, h2⟩
    refine ⟨⟨by omega, by exact_mod_cast h1⟩, fun j hj => ?_⟩
    rw [bitPos_object f ha hj, h2 j hj, hbit]

/-- C52 (partial): decoding a payload with a loaded DID.  The result has exactly the data objects the
file describes; each has the value the file gives to the number found at its place, counting bits
from the beginning of the payload.  Missing: what is missing in `C52_load_partial`, and big endian
objects that are not addressable (C25). -/
theorem C52_decode_partial {T : NumText} {root doc : Xml} {dids : List CddDid}
    (h : CddSays T root doc dids) (hsup : ∀ d ∈ dids, ∀ o ∈ d.objects, SupportedType o.type)
    (hord : ∀ x ∈ instances doc, PartsOrdered x) (fo : FloatOps) {k : Nat} {c : CddDid}
    (hk : dids[k]? = some c) (hp : Placeable c) :
    ∃ loaded d, load T root = .ok loaded ∧ loaded[k]? = some d ∧ d.identifier = c.identifier ∧
      ∀ (data : Bytes), d.length ≤ data.length → ∀ truncated excess, ∃ r,
        d.decode fo data true true truncated excess = .ok r ∧ (r.map (·.1)).Nodup ∧
        ∀ n v, dictGet? r n = some v ↔ ∃ i o, c.objects[i]? = some o ∧ o.name = n ∧
          ∃ raw : Nat, RawAt data (objectOffset c.objects i) o.type raw ∧ ObjectShows o.type raw v := by
  obtain ⟨loaded, h1, h2⟩ := load_says h hsup hord
  have hc : c ∈ dids := List.mem_of_getElem? hk
  obtain ⟨fs, hd, hfs⟩ : ∃ fs, loaded[k]? = some (loadDidElement c.identifier c.name fs) ∧
      List.Forall₂ FieldLoaded c.objects fs := by
    clear h1 h hsup hp hord hc
    induction h2 generalizing k with
    | nil => simp at hk
    | cons g1 _ ih =>
      cases k with
      | zero =>
        obtain rfl : _ = c := by simpa using hk
        obtain ⟨fs, rfl, hfs⟩ := g1
        exact ⟨fs, rfl, hfs⟩
      | succ k => exact ih (by simpa using hk)
  refine ⟨loaded, _, h1, hd, rfl, ?_⟩
  have hnames : fs.map (·.name) = c.objects.map (·.name) := by
    clear hd hp hk
    generalize c.objects = os at hfs
    induction hfs with
    | nil => rfl
    | cons g1 _ ih => rw [List.map_cons, List.map_cons, g1.name, ih]
  have hadr : ∀ i f, fs[i]? = some f → Addressable (fieldOffset fs i) f.bitLength f.byteOrder := by
    intro i f hf
    obtain ⟨o, ho, hl⟩ := loaded_get hfs hf
    rw [loaded_offset hfs, hl.bits, hl.order]
    exact hp.addressable i o ho
  have hpos : ∀ f ∈ fs, 0 < f.bitLength := by
    intro f hf
    obtain ⟨i, hi⟩ := List.mem_iff_getElem?.1 hf
    obtain ⟨o, -, hl⟩ := loaded_get hfs hi
    exact hl.pos
  have hlay := (C25_cdd_layout_partial (id := c.identifier) (nm := c.name)
    (hnames ▸ hp.nodup) hpos hadr).1
  have hmem : ∀ x ∈ (loadDidElement c.identifier c.name fs).datas, ∃ i o f, c.objects[i]? = some o ∧
      fs[i]? = some f ∧ FieldLoaded o f ∧ x = loadDataElement f (fieldOffset fs i) := by
    intro x hx
    obtain ⟨i, f, hf, rfl⟩ := loadDid_mem hx
    obtain ⟨o, ho, hl⟩ := loaded_get hfs hf
    exact ⟨i, o, f, ho, hf, hl, rfl⟩
  intro data hlen truncated excess
  obtain ⟨r, hr1, hr2, hr3⟩ := C25_decode_reads_bits (fo := fo) hlay
    (fun x hx => by obtain ⟨i, o, f, -, -, hl, rfl⟩ := hmem x hx; exact hl.built)
    (fun x hx hfl => by
      obtain ⟨i, o, f, -, -, hl, rfl⟩ := hmem x hx
      exact absurd (hfl.symm.trans hl.isInt) (by simp))
    hlen (decodeChoices := true) (scaling := true) (truncated := truncated) (excess := excess)
  refine ⟨r, hr1, hr2, fun n v => ?_⟩
  rw [hr3]
  -- the value of one object
  have hval : ∀ i o f, c.objects[i]? = some o → fs[i]? = some f → FieldLoaded o f → ∀ v,
      (∃ raw, RawIn fo (loadDataElement f (fieldOffset fs i)).toSignal data raw ∧
        v = shown (loadDataElement f (fieldOffset fs i)).toSignal true true raw) ↔
      ∃ raw : Nat, RawAt data (objectOffset c.objects i) o.type raw ∧ ObjectShows o.type raw v := by
    intro i o f ho hf hl v
    have hraw : ∀ q, RawIn fo (loadDataElement f (fieldOffset fs i)).toSignal data q ↔
        ∃ raw : Nat, q = ((raw : Int) : Rat) ∧ RawAt data (objectOffset c.objects i) o.type raw := by
      intro q
      unfold RawIn
      have hfl : (loadDataElement f (fieldOffset fs i)).toSignal.conversion.isFloat = false := hl.isInt
      rw [hfl]
      simp only [Bool.false_eq_true, if_false]
      unfold RawAt
      rw [← hl.bits, ← hl.order, ← loaded_offset hfs]
      constructor
      · rintro ⟨v, rfl, hv⟩
        obtain ⟨raw, rfl, ha, hb⟩ := (readsAs_object f (hadr i f hf) data v).1 hv
        exact ⟨raw, rfl, ha, hb⟩
      · rintro ⟨raw, rfl, ha, hb⟩
        exact ⟨raw, rfl, (readsAs_object f (hadr i f hf) data raw).2 ⟨raw, rfl, ha, hb⟩⟩
    have hshow : ∀ raw : Nat, ObjectShows o.type raw
        (shown (loadDataElement f (fieldOffset fs i)).toSignal true true ((raw : Int) : Rat)) := by
      intro raw
      rw [← decodeSignalValue_eq (s := (loadDataElement f (fieldOffset fs i)).toSignal) hl.built
        (.inl (by simp))]
      exact hl.shows_ raw
    constructor
    · rintro ⟨q, hq, rfl⟩
      obtain ⟨raw, rfl, hat⟩ := (hraw q).1 hq
      exact ⟨raw, hat, hshow raw⟩
    · rintro ⟨raw, hat, hv⟩
      exact ⟨_, (hraw _).2 ⟨raw, rfl, hat⟩,
        shows_unique (hsup c hc o (List.mem_of_getElem? ho)) hv (hshow raw)⟩
  constructor
  · rintro ⟨x, hx, rfl, hq⟩
    obtain ⟨i, o, f, ho, hf, hl, rfl⟩ := hmem x hx
    exact ⟨i, o, ho, hl.name.symm, (hval i o f ho hf hl v).1 hq⟩
  · rintro ⟨i, o, ho, rfl, hq⟩
    obtain ⟨f, hf, hl⟩ := loaded_get' hfs ho
    refine ⟨loadDataElement f (fieldOffset fs i), ?_, hl.name, (hval i o f ho hf hl v).2 hq⟩
    apply List.mem_iff_getElem?.2
    exact ⟨i, by simp [loadDidElement, loadDatas_get, hf]⟩

/-! ### The database -/

theorem Cdd.refresh_tables (db : Database) :
    db.refresh.dids = db.dids ∧
    db.refresh.byName = db.dids.foldl (fun m d => dictSet m d.name d) [] ∧
    db.refresh.byIdentifier = db.dids.foldl (fun m d => dictSet m d.identifier d) [] := by
  have key : ∀ (l : List Did) (acc : Database), (l.foldl Database.addDid acc).dids = acc.dids ∧
      (l.foldl Database.addDid acc).byName = l.foldl (fun m d => dictSet m d.name d) acc.byName ∧
      (l.foldl Database.addDid acc).byIdentifier =
        l.foldl (fun m d => dictSet m d.identifier d) acc.byIdentifier := by
    intro l
    induction l with
    | nil => intro acc; exact ⟨rfl, rfl, rfl⟩
    | cons d r ih => intro acc; exact ih (acc.addDid d)
  exact key db.dids { dids := db.dids }

theorem Cdd.get_last {κ : Type} [DecidableEq κ] (k : Did → κ) (l : List Did) (key : κ) :
    (∀ d, dictGet (l.foldl (fun m d => dictSet m (k d) d) []) key = .ok d ↔
      IsLast (fun d => k d = key) l d) ∧
    (dictGet (l.foldl (fun m d => dictSet m (k d) d) []) key = .error .keyError ↔
      ∀ d ∈ l, k d ≠ key) := by
  have hg := get_fold k l [] key
  constructor
  · intro d
    rw [dictGet_eq_ok, hg, dictGet?_nil, Option.or_none]
    exact find_last (p := fun d => k d = key)
  · unfold dictGet
    rw [hg, dictGet?_nil, Option.or_none]
    cases e : (l.reverse.find? fun a => decide (k a = key)) with
    | none =>
      simp only [true_iff]
      intro d hd
      have := List.find?_eq_none.1 e d (List.mem_reverse.2 hd)
      simpa using this
    | some d =>
      have h1 := List.mem_of_find?_eq_some e
      have h2 := List.find?_some e
      simp only [reduceCtorEq, false_iff, not_forall]
      exact ⟨d, List.mem_reverse.1 h1, by simpa using h2⟩

/-- C52: a name gives the last DID that has it; an unknown name is a `KeyError`. -/
theorem C52_by_name (db : Database) (n : String) :
    (∀ d, db.refresh.getByName n = .ok d ↔ IsLast (fun d => d.name = n) db.refresh.dids d) ∧
    (db.refresh.getByName n = .error .keyError ↔ ∀ d ∈ db.refresh.dids, d.name ≠ n) := by
  obtain ⟨h1, h2, -⟩ := refresh_tables db
  unfold Database.getByName
  rw [h1, h2]
  exact get_last (fun d : Did => d.name) db.dids n

/-- C52: an identifier gives the last DID that has it; an unknown identifier is a `KeyError`. -/
theorem C52_by_identifier (db : Database) (i : Int) :
    (∀ d, db.refresh.getByIdentifier i = .ok d ↔ IsLast (fun d => d.identifier = i) db.refresh.dids d) ∧
    (db.refresh.getByIdentifier i = .error .keyError ↔ ∀ d ∈ db.refresh.dids, d.identifier ≠ i) := by
  obtain ⟨h1, -, h2⟩ := refresh_tables db
  unfold Database.getByIdentifier
  rw [h1, h2]
  exact get_last (fun d : Did => d.identifier) db.dids i

/-- C52: adding a file to a database replaces what was in it: afterwards exactly the DIDs of the new
file are found, whatever the database contained before. -/
theorem C52_add_replaces (T : NumText) (db db' : Database) (root : Xml) (h : db.addCdd T root = .ok db') :
    ∃ loaded, load T root = .ok loaded ∧ db'.dids = loaded ∧
      ∀ n, (∀ d ∈ loaded, d.name ≠ n) → db'.getByName n = .error .keyError := by
  unfold Database.addCdd at h
  cases hl : load T root with
  | error e => rw [hl] at h; cases h
  | ok loaded =>
    rw [hl] at h
    obtain rfl := Except.ok.inj h
    obtain ⟨h1, -, -⟩ := refresh_tables { db with dids := loaded }
    refine ⟨loaded, rfl, h1, fun n hn => ?_⟩
    refine (C52_by_name { db with dids := loaded } n).2.2 ?_
    rw [h1]
    exact hn

/-! ### Non-vacuity and the cases where it fails -/

namespace Cdd

/-- The numbers of the examples. -/
def numbers : NumText := ⟨fun _ => "", fun s =>
  if s = "0.5" then .ok (1 / 2) else if s = "-40" then .ok (-40) else .error .valueError⟩

def node (tag : String) (attrs : List (String × String)) (children : List Xml) : Xml :=
  .elem tag attrs none children

def leaf (tag text : String) : Xml := .elem tag [] (some text) []

def named (tag text : String) : Xml := node tag [] [leaf "TUV" text]

def switchType : Xml := node "TEXTTBL" [("id", "t1")] [named "NAME" "Switch",
  node "CVALUETYPE" [("bl", "8"), ("bo", "21"), ("enc", "uns"), ("minsz", "1"), ("maxsz", "1")] [],
  node "TEXTMAP" [("s", "(0)"), ("e", "(0)")] [named "TEXT" "Off"],
  node "TEXTMAP" [("s", "1"), ("e", "1")] [named "TEXT" "On"]]

def temperatureType : Xml := node "LINCOMP" [("id", "t2")] [named "NAME" "Temperature",
  node "CVALUETYPE" [("bl", "16"), ("bo", "21")] [],
  node "PVALUETYPE" [] [leaf "UNIT" "degC"], node "COMP" [("f", "0.5"), ("o", "-40")] []]

def object (name type : String) : Xml := node "DATAOBJ" [("dtref", type)] [leaf "QUAL" name]

def instance_ (identifier name : String) (parts : List Xml) : Xml :=
  node "DIAGINST" [] [leaf "QUAL" name, node "STATICVALUE" [("v", identifier)] [],
    node "SIMPLECOMPCONT" [] parts]

def cddDoc (types shared insts : List Xml) : Xml :=
  node "ECUDOC" [] [node "DATATYPES" [] types, node "DIDS" [] shared,
    node "ECU" [] [node "VAR" [] [node "DIAGCLASS" [] insts]]]

def cddRoot (doc : Xml) : Xml := node "CANDELA" [] [doc]

def sharedDid : Xml := node "DID" [("id", "s1")] [node "STRUCTURE" [] [object "Outside" "t2"]]

def exampleParts : List Xml := [object "Pump" "t1", object "Inside" "t2",
  node "DIDDATAREF" [("didRef", "s1")] []]

def exampleDoc : Xml := cddDoc [switchType, temperatureType] [sharedDid]
  [instance_ "61697" "Climate" exampleParts]

def switch : CddType := { bits := 8, order := .big, labels := [⟨0, 0, "Off"⟩, ⟨1, 1, "On"⟩] }

def temperature : CddType := { bits := 16, order := .big, unit := some "degC", factor := 1 / 2, offset := -40 }

def climate : CddDid := ⟨61697, "Climate", [⟨"Pump", switch⟩, ⟨"Inside", temperature⟩, ⟨"Outside", temperature⟩]⟩

theorem decimalOf (ds : List Nat) {s : String} {i : Int} (hne : ds ≠ []) (hds : ∀ d ∈ ds, d < 10)
    (hs : s = String.ofList (digitText ds)) (hi : i = (Nat.ofDigits 10 ds.reverse : Nat)) :
    DecimalText s i := by
  subst hs hi; exact .nat hne hds

theorem switch_says : TypeSays numbers switchType switch where
  pos := by decide
  id := ⟨_, rfl⟩
  name := ⟨named "NAME" "Switch", leaf "TUV" "Switch", [], rfl, rfl⟩
  ctype := ⟨_, rfl, ⟨_, rfl, decimalOf [8] (by decide) (by decide) (by decide) (by decide)⟩, rfl, by decide,
    fun t ht => ⟨1, decimalOf [1] (by decide) (by decide) (by cases ht; decide) (by decide)⟩,
    fun t ht => ⟨1, decimalOf [1] (by decide) (by decide) (by cases ht; decide) (by decide)⟩,
    fun _ => rfl, fun h => absurd h (by decide)⟩
  unit := .inl rfl
  labels := by
    refine .cons ⟨⟨_, rfl, "0", decimalOf [0] ?_ ?_ ?_ ?_, .inr ?_⟩, ⟨_, rfl, "0", decimalOf [0] ?_ ?_ ?_ ?_, .inr ?_⟩,
      named "TEXT" "Off", leaf "TUV" "Off", [], rfl, rfl, rfl⟩
      (.cons ⟨⟨_, rfl, "1", decimalOf [1] ?_ ?_ ?_ ?_, .inl ?_⟩, ⟨_, rfl, "1", decimalOf [1] ?_ ?_ ?_ ?_, .inl ?_⟩,
      named "TEXT" "On", leaf "TUV" "On", [], rfl, rfl, rfl⟩ .nil) <;> decide
  comp := .inl ⟨rfl, rfl, rfl⟩

theorem temperature_says : TypeSays numbers temperatureType temperature where
  pos := by decide
  id := ⟨_, rfl⟩
  name := ⟨named "NAME" "Temperature", leaf "TUV" "Temperature", [], rfl, rfl⟩
  ctype := ⟨_, rfl, ⟨_, rfl, decimalOf [1, 6] (by decide) (by decide) (by decide) (by decide)⟩, rfl, by decide,
    (fun t ht => by cases ht), (fun t ht => by cases ht), fun _ => rfl, fun h => absurd h (by decide)⟩
  unit := ⟨_, _, rfl, rfl, rfl⟩
  labels := .nil
  comp := .inr ⟨_, _, _, rfl, rfl, rfl, rfl, rfl⟩

theorem example_says : CddSays numbers (cddRoot exampleDoc) exampleDoc [climate] where
  document := rfl
  types := by
    intro d hd
    have : d ∈ [switchType, temperatureType] := hd
    rcases List.mem_pair.1 this with rfl | rfl
    · exact ⟨_, switch_says⟩
    · exact ⟨_, temperature_says⟩
  typeIds := by decide
  shared := by decide
  sharedIds := by decide
  sharedId := by
    intro d hd
    have : d ∈ [sharedDid] := hd
    rw [List.mem_singleton.1 this]
    exact ⟨_, rfl⟩
  variant := by
    have : firstVariant exampleDoc = [node "VAR" [] [node "DIAGCLASS" [] [instance_ "61697" "Climate" exampleParts]]] := rfl
    rw [this]; simp
  dids := by
    refine .cons ⟨⟨_, _, rfl, rfl, decimalOf [6, 1, 6, 9, 7] ?_ ?_ ?_ ?_⟩, ⟨_, rfl, rfl⟩, ?_, ?_⟩ .nil
    · decide
    · decide
    · decide
    · decide
    · intro c hc ht
      have : c ∈ exampleParts := hc
      simp only [exampleParts, List.mem_cons, List.not_mem_nil, or_false] at this
      rcases this with rfl | rfl | rfl
      · exact absurd ht (by decide)
      · exact absurd ht (by decide)
      · exact ⟨sharedDid, List.mem_singleton.2 rfl, _, rfl, rfl⟩
    · exact .cons ⟨⟨_, rfl, rfl⟩, switchType, .head _, ⟨_, rfl, rfl⟩, switch_says⟩
        (.cons ⟨⟨_, rfl, rfl⟩, temperatureType, .tail _ (.head _), ⟨_, rfl, rfl⟩, temperature_says⟩
        (.cons ⟨⟨_, rfl, rfl⟩, temperatureType, .tail _ (.head _), ⟨_, rfl, rfl⟩, temperature_says⟩ .nil))

theorem example_supported : ∀ d ∈ [climate], ∀ o ∈ d.objects, SupportedType o.type := by
  intro d hd o ho
  obtain rfl := List.mem_singleton.1 hd
  simp only [climate, List.mem_cons, List.not_mem_nil, or_false] at ho
  rcases ho with rfl | rfl | rfl <;> exact ⟨rfl, rfl, by decide, by decide⟩

theorem example_ordered : ∀ x ∈ instances exampleDoc, PartsOrdered x := by
  intro x hx
  have : x ∈ [instance_ "61697" "Climate" exampleParts] := hx
  rw [List.mem_singleton.1 this]
  show exampleParts.Pairwise _
  simp only [exampleParts, List.pairwise_cons, List.mem_cons, List.not_mem_nil, or_false]
  refine ⟨?_, ?_, by simp⟩
  · rintro a (rfl | rfl) <;> decide
  · rintro a rfl; decide

theorem example_placeable : Placeable climate where
  nodup := by decide
  addressable := by
    intro i o h
    match i with
    | 0 => obtain rfl := Option.some.inj h; unfold Addressable; decide
    | 1 => obtain rfl := Option.some.inj h; unfold Addressable; decide
    | 2 => obtain rfl := Option.some.inj h; unfold Addressable; decide
    | i + 3 => simp [climate] at h

end Cdd

example : ∃ loaded, load numbers (cddRoot exampleDoc) = .ok loaded ∧ List.Forall₂ DidLoaded [climate] loaded :=
  C52_load_partial example_says example_supported example_ordered

example (fo : FloatOps) := C52_decode_partial example_says example_supported example_ordered fo
  (k := 0) rfl example_placeable

/-- The second object is 16 bits at bit 8, most significant byte first. -/
example : RawAt [1, 0x01, 0x02, 0, 80] (objectOffset climate.objects 1) temperature 0x0102 ∧
    ObjectShows temperature 0x0102 (.num 89) := by
  refine ⟨⟨by decide, by decide⟩, .inr ⟨by simp [temperature], ?_⟩⟩
  norm_num [temperature]

/-- Of two DIDs with one name the last one is found. -/
example : IsLast (fun d : Did => d.name = "D") [⟨1, "D", 1, []⟩, ⟨2, "E", 1, []⟩, ⟨3, "D", 2, []⟩] ⟨3, "D", 2, []⟩ :=
  ((C52_by_name { dids := [⟨1, "D", 1, []⟩, ⟨2, "E", 1, []⟩, ⟨3, "D", 2, []⟩] } "D").1 _).1 rfl

example : (Database.create [⟨1, "D", 1, []⟩]).getByIdentifier 2 = .error .keyError :=
  (C52_by_identifier { dids := [⟨1, "D", 1, []⟩] } 2).2.2 (by simp [Database.refresh, Database.addDid])

/-- A file added to a database that already has a DID: it is not found any more. -/
example : ∃ db', (Database.create [⟨1, "D", 1, []⟩]).addCdd numbers (cddRoot exampleDoc) = .ok db' ∧
    db'.getByName "D" = .error .keyError := ⟨_, rfl, rfl⟩

namespace Cdd

def cType (id : String) (attrs : List (String × String)) (more : List Xml) : Xml :=
  node "IDENT" [("id", id)] ([named "NAME" "Type", node "CVALUETYPE" attrs []] ++ more)

def signedType : Xml := cType "t3" [("bl", "8"), ("bo", "21"), ("enc", "sgn")] []

def fieldType : Xml := cType "t4" [("bl", "8"), ("bo", "21"), ("qty", "field"), ("minsz", "17"), ("maxsz", "17")] []

def rangeType : Xml := cType "t5" [("bl", "8"), ("bo", "21")]
  [node "TEXTMAP" [("s", "2"), ("e", "9")] [named "TEXT" "Reserved"]]

def loneDoc (types : List Xml) (parts : List Xml) : Xml :=
  cddDoc types [sharedDid] [instance_ "1" "D" parts]

/-- One object of one type. -/
theorem lone_says {x : Xml} {t : CddType} (i : String) (hx : x.attr? "id" = some i) (h : TypeSays numbers x t) :
    CddSays numbers (cddRoot (loneDoc [x] [object "S" i])) (loneDoc [x] [object "S" i]) [⟨1, "D", [⟨"S", t⟩]⟩] where
  document := rfl
  types := by
    intro d hd
    have : d ∈ [x] := by simpa [typeDefs, kids, loneDoc, cddDoc, node, Xml.children, Xml.tag] using hd
    rw [List.mem_singleton.1 this]
    exact ⟨_, h⟩
  typeIds := by
    simp [typeDefs, kids, loneDoc, cddDoc, node, Xml.children, Xml.tag]
  shared := by simp [kids, loneDoc, cddDoc, node, Xml.children, Xml.tag]
  sharedIds := by simp [sharedDids, kids, loneDoc, cddDoc, node, Xml.children, Xml.tag, sharedDid]
  sharedId := by
    intro d hd
    have : d ∈ [sharedDid] := hd
    rw [List.mem_singleton.1 this]
    exact ⟨_, rfl⟩
  variant := by
    have : firstVariant (loneDoc [x] [object "S" i]) = [node "VAR" [] [node "DIAGCLASS" [] [instance_ "1" "D" [object "S" i]]]] := rfl
    rw [this]; simp
  dids := by
    refine .cons ⟨⟨_, _, rfl, rfl, decimalOf [1] ?_ ?_ ?_ ?_⟩, ⟨_, rfl, rfl⟩, ?_, ?_⟩ .nil
    · decide
    · decide
    · decide
    · exact (by decide : (1 : Int) = (Nat.ofDigits 10 [1].reverse : Nat))
    · intro c hc ht
      have : c ∈ [object "S" i] := hc
      rw [List.mem_singleton.1 this] at ht
      exact absurd ht (by simp [object, node, Xml.tag])
    · refine .cons ⟨⟨_, rfl, rfl⟩, x, ?_, ⟨i, rfl, hx⟩, h⟩ .nil
      simp [typeDefs, kids, loneDoc, cddDoc, node, Xml.children, Xml.tag]

end Cdd

/-- Signed numbers are read as unsigned ones: the encoding of the data type is not used.  The file
below describes a signed byte; 0xFF is decoded as 255. -/
theorem C52_signed_fails : ∃ root doc, ∃ t : CddType, t.signed = true ∧ t.bits = 8 ∧
    CddSays numbers root doc [⟨1, "D", [⟨"S", t⟩]⟩] ∧ ∃ d, load numbers root = .ok [d] ∧
      d.decode Example.fo [0xFF] true true false true = .ok [("S", .num 255)] := by
  refine ⟨_, _, { bits := 8, order := .big, signed := true }, rfl, rfl, lone_says (x := signedType) "t3" rfl ?_,
    _, rfl, by decide +kernel⟩
  exact {
    pos := by decide
    id := ⟨_, rfl⟩
    name := ⟨named "NAME" "Type", leaf "TUV" "Type", [], rfl, rfl⟩
    ctype := ⟨_, rfl, ⟨_, rfl, decimalOf [8] (by decide) (by decide) (by decide) (by decide)⟩, rfl, by decide,
      (fun t ht => by cases ht), (fun t ht => by cases ht), fun _ => rfl, fun h => absurd h (by decide)⟩
    unit := .inl rfl
    labels := .nil
    comp := .inl ⟨rfl, rfl, rfl⟩ }

/-- A field of 17 bytes is loaded as one byte; the number of elements becomes the least and greatest
value. -/
theorem C52_field_fails : ∃ root doc, ∃ t : CddType, t.count = 17 ∧ t.bits = 8 ∧
    CddSays numbers root doc [⟨1, "D", [⟨"S", t⟩]⟩] ∧ ∃ d x, load numbers root = .ok [d] ∧
      d.length = 1 ∧ d.datas = [x] ∧ x.length = 8 ∧ x.minimum = some 17 ∧ x.maximum = some 17 := by
  refine ⟨_, _, { bits := 8, order := .big, count := 17 }, rfl, rfl, lone_says (x := fieldType) "t4" rfl ?_,
    _, _, rfl, by decide +kernel, rfl, by decide +kernel, by decide +kernel, by decide +kernel⟩
  have h17 : DecimalText "17" ((17 : Nat) : Int) := decimalOf [1, 7] (by decide) (by decide) (by decide) (by decide)
  exact {
    pos := by decide
    id := ⟨_, rfl⟩
    name := ⟨named "NAME" "Type", leaf "TUV" "Type", [], rfl, rfl⟩
    ctype := ⟨_, rfl, ⟨_, rfl, decimalOf [8] (by decide) (by decide) (by decide) (by decide)⟩, rfl, by decide,
      (fun t ht => ⟨17, by cases ht; exact h17⟩), (fun t ht => ⟨17, by cases ht; exact h17⟩),
      (fun h => absurd rfl h), fun _ => ⟨_, rfl, rfl, h17⟩⟩
    unit := .inl rfl
    labels := .nil
    comp := .inl ⟨rfl, rfl, rfl⟩ }

/-- A name for a range of values is dropped. -/
theorem C52_range_fails : ∃ root doc, ∃ t : CddType, t.labels = [⟨2, 9, "Reserved"⟩] ∧
    CddSays numbers root doc [⟨1, "D", [⟨"S", t⟩]⟩] ∧ ∃ d, load numbers root = .ok [d] ∧
      d.decode Example.fo [2] true true false true = .ok [("S", .num 2)] := by
  refine ⟨_, _, { bits := 8, order := .big, labels := [⟨2, 9, "Reserved"⟩] }, rfl,
    lone_says (x := rangeType) "t5" rfl ?_, _, rfl, by decide +kernel⟩
  exact {
    pos := by decide
    id := ⟨_, rfl⟩
    name := ⟨named "NAME" "Type", leaf "TUV" "Type", [], rfl, rfl⟩
    ctype := ⟨_, rfl, ⟨_, rfl, decimalOf [8] (by decide) (by decide) (by decide) (by decide)⟩, rfl, by decide,
      (fun t ht => by cases ht), (fun t ht => by cases ht), fun _ => rfl, fun h => absurd h (by decide)⟩
    unit := .inl rfl
    labels := by
      refine .cons ⟨⟨_, rfl, "2", decimalOf [2] ?_ ?_ ?_ ?_, .inl rfl⟩, ⟨_, rfl, "9", decimalOf [9] ?_ ?_ ?_ ?_, .inl rfl⟩,
        named "TEXT" "Reserved", leaf "TUV" "Reserved", [], rfl, rfl, rfl⟩ .nil <;> decide
    comp := .inl ⟨rfl, rfl, rfl⟩ }

/-- A reference before a data object in a DID. -/
def Cdd.swappedDoc : Xml := loneDoc [switchType, temperatureType]
  [node "DIDDATAREF" [("didRef", "s1")] [], object "Pump" "t1"]

/-- A reference before a data object is moved behind it: the switch is read from the first byte
although the file puts the two bytes of the temperature before it. -/
theorem C52_order_fails : ∃ root doc,
    CddSays numbers root doc [⟨1, "D", [⟨"Outside", temperature⟩, ⟨"Pump", switch⟩]⟩] ∧
    ∃ d, load numbers root = .ok [d] ∧
      d.decode Example.fo [1, 0, 0] true true false true = .ok [("Pump", .str "On"), ("Outside", .num (-40))] := by
  refine ⟨cddRoot swappedDoc, swappedDoc, ?_, _, rfl, by decide +kernel⟩
  exact {
    document := rfl
    types := example_says.types
    typeIds := by decide
    shared := by decide
    sharedIds := by decide
    sharedId := example_says.sharedId
    variant := fun h => by
      have := congrArg List.length h
      exact absurd this (by decide)
    dids := by
      refine .cons ⟨⟨_, _, rfl, rfl, decimalOf [1] ?_ ?_ ?_ ?_⟩, ⟨_, rfl, rfl⟩, ?_, ?_⟩ .nil
      · decide
      · decide
      · decide
      · decide
      · intro c hc ht
        have : c ∈ [node "DIDDATAREF" [("didRef", "s1")] [], object "Pump" "t1"] := hc
        rcases List.mem_pair.1 this with rfl | rfl
        · exact ⟨sharedDid, List.mem_singleton.2 rfl, _, rfl, rfl⟩
        · exact absurd ht (by decide)
      · exact .cons ⟨⟨_, rfl, rfl⟩, temperatureType, .tail _ (.head _), ⟨_, rfl, rfl⟩, temperature_says⟩
          (.cons ⟨⟨_, rfl, rfl⟩, switchType, .head _, ⟨_, rfl, rfl⟩, switch_says⟩ .nil) }

/-- A reference to a shared DID that does not exist is left out without an error. -/
theorem C52_unknown_reference : ∃ d, load numbers (cddRoot (loneDoc [switchType]
    [object "Pump" "t1", node "DIDDATAREF" [("didRef", "missing")] []])) = .ok [d] ∧
    d.datas.map (·.name) = ["Pump"] ∧ d.length = 1 :=
  ⟨_, rfl, by decide +kernel, by decide +kernel⟩

end Cantools
