import Verif.Lemmas.ArxmlScale
import Verif.Props.Conversion

/-
C51: scaling and names of signals of ARXML files.
-/

namespace Cantools
open Spec ArxmlScale
open Regex (Chars)

/-- C51: the number an element stands for is the number that is read: decimal, octal with leading
zero, hexadecimal and binary integers, `true`, `false`, nothing, and floating point numbers, with
blanks around them and in any letter case.  Where an integer is expected a floating point number is
accepted exactly if its value is an integer.  Missing: octal numbers with a sign and floating point
numbers with a superfluous zero, see `C51_awkward_numbers`. -/
theorem C51_numbers_partial (F : FloatRead) (t : Chars) (q : Rat) (h : PlainNumber F t q) :
    parseNumber F t true = .ok q ∧
    parseNumber F t false = if q.den = 1 then .ok q else .error .valueError := by
  refine ⟨parseNumber_float h, ?_⟩
  rw [parseNumber_plain h]
  by_cases hq : q.den = 1
  · have hi : q = (q.num : Int) := ((Rat.den_eq_one_iff q).1 hq).symm
    have : q = (pyInt q : Int) := by
      rw [hi, pyInt_int]
    rw [if_pos hq, if_neg (by simp [← this])]
  · rw [if_neg hq, if_pos]
    refine ⟨rfl, fun e => hq ?_⟩
    rw [e]
    simp

/-- C51: a signal with a compu method of one of the categories `TEXTTABLE`, `LINEAR` and
`SCALE_LINEAR_AND_TEXTTABLE` is loaded, and for every raw value in the interval of one of its scales
the user sees what that scale says: the name, or `(v0 + v1 * raw) / d` (the name if the interval of
the linear scale contains a named value).  A name that is not given twice stands for its number when
encoding.  The limits of the signal allow exactly the physical values of the raw values in the
interval of the linear scale.  Without linear scale the values without name are shown as they are and
nothing is limited.  Missing: linear functions that do not increase, several linear functions, names
for intervals; see `C51_decreasing`, `C51_segments` and `C51_named_interval`. -/
theorem C51_scales_partial (F : FloatRead) (m : CompuMethod) (k : Category) (isFloat : Bool)
    (cs : List ScaleContent) (hk : m.category = some k)
    (hsays : List.Forall₂ (ScaleSays F) m.scales cs) (hs : SupportedScales cs)
    (ha : CategoryAllows k cs) :
    ∃ L, loadSignal F (some m) isFloat = .ok L ∧
      (∀ c ∈ cs, ∀ raw : Int, c.Contains raw →
        (Increasing c → ∀ c' ∈ cs, NamesOne c' → ¬ c'.Contains raw) →
        ScaleShows c raw (L.conversion.rawToScaled raw true)) ∧
      (∀ c ∈ cs, ∀ n, c.body = .name n → (∀ c' ∈ cs, c'.body = .name n → c'.lower = c.lower) →
        ∀ i : Int, c.lower = some (i : Rat) → L.conversion.scaledToRaw (.str n) = .ok (i : Rat)) ∧
      (∀ c ∈ cs, ∀ v0 v1 d, c.body = .linear v0 v1 d → ∀ raw : Rat, c.Contains raw ↔
        (∀ mn, L.minimum = some mn → mn ≤ (v0 + v1 * raw) / d) ∧
        (∀ mx, L.maximum = some mx → (v0 + v1 * raw) / d ≤ mx)) ∧
      ((∀ c ∈ cs, NamesOne c) → L.minimum = none ∧ L.maximum = none ∧ ∀ raw : Int,
        (∀ c ∈ cs, ¬ c.Contains raw) → L.conversion.rawToScaled raw true = .num raw) := by
  -- what is loaded
  have hload : ∃ ch : Option Choices, loadSystemSignal F (some m) =
      .ok ((cs.foldl addScale (noScaling, [])).1, ch) ∧
      (ch = some (cs.foldl addScale (noScaling, [])).2 ∨ (ch = none ∧ ∀ c ∈ cs, Increasing c)) := by
    unfold loadSystemSignal
    dsimp only
    rw [hk]
    cases k with
    | texttable =>
      have h := loadTexttable_text hsays ha (noScaling, [])
      refine ⟨some (cs.foldl addScale (noScaling, [])).2, ?_, Or.inl rfl⟩
      dsimp only
      unfold loadTexttable
      rw [h.1, h.2]
      rfl
    | linear =>
      refine ⟨none, ?_, Or.inr ⟨rfl, ha.2⟩⟩
      dsimp only
      generalize m.scales = ss at hsays
      cases hsays with
      | nil => rfl
      | @cons s c ss cs' h1 h2 =>
        cases h2 with
        | cons => exact absurd ha.1 (by simp)
        | nil =>
          obtain ⟨v0, v1, d, hb, -, hlu⟩ := ha.2 c (by simp)
          unfold loadLinear
          dsimp only
          rw [(linearScale_text h1 hb hlu).2]
          simp only [List.foldl_cons, List.foldl_nil]
          unfold addScale
          rw [hb]
          rfl
    | linearAndTexttable =>
      refine ⟨some (cs.foldl addScale (noScaling, [])).2, ?_, Or.inl rfl⟩
      dsimp only
      unfold loadMixed
      rw [loadMixed_text hsays hs.each]
      rfl
    | other => exact absurd ha (by simp [CategoryAllows])
  obtain ⟨ch, hl, hch⟩ := hload
  refine ⟨_, by unfold loadSignal; rw [hl]; rfl, ?_, ?_, ?_, ?_⟩
  · intro c hm raw hin hfree
    dsimp only
    rcases hs.each c hm with ⟨n, i, hb, hlo, hup⟩ | hi
    · have hraw : raw = i := by
        have h1 := hin.1 _ hlo
        have h2 := hin.2 _ hup
        exact_mod_cast le_antisymm h2 h1
      subst hraw
      rcases hch with rfl | ⟨-, hall⟩
      · unfold ScaleShows
        rw [hb]
        dsimp only [Conversion.factory, Conversion.rawToScaled]
        rw [pyInt_int, if_pos rfl, get_named hs hm hb hlo hup]
        rfl
      · exact absurd (hall c hm) (fun h => namesOne_increasing ⟨n, raw, hb, hlo, hup⟩ h)
    · have hnone : ∀ c' ∈ cs, NamesOne c' → c'.lower ≠ some (raw : Rat) := by
        intro c' hm' hn e
        refine hfree hi c' hm' hn ?_
        obtain ⟨n, i, hb, hlo, hup⟩ := hn
        have hri : (i : Rat) = raw := by
          rw [hlo] at e
          exact Option.some.inj e
        exact ⟨fun l h => by rw [hlo] at h; rw [← Option.some.inj h, hri],
          fun u h => by rw [hup] at h; rw [← Option.some.inj h, hri]⟩
      obtain ⟨v0, v1, d, hb, hpos, hlu⟩ := hi
      have hsc := scaling_linear hs hm ⟨v0, v1, d, hb, hpos, hlu⟩ hb (noScaling, [])
      have hf := factory_scale (v1 / d) (v0 / d) isFloat
      have hval : (raw : Rat) * (v1 / d) + v0 / d = (v0 + v1 * raw) / d := by ring
      unfold ScaleShows
      rw [hb, hsc]
      rcases hch with rfl | ⟨rfl, -⟩
      · dsimp only [Conversion.factory, Conversion.rawToScaled, scalingOf]
        rw [pyInt_int, if_pos rfl, get_other hs.each raw hnone]
        change Value.num _ = _
        rw [rawToScaled_eq, hf.1, hf.2.1, hval]
      · dsimp only [Conversion.factory, Conversion.rawToScaled, scalingOf]
        rw [rawToScaled_eq, hf.1, hf.2.1, hval]
  · intro c hm n hb huniq i hlo
    dsimp only
    have hup : c.upper = some (i : Rat) := by
      rcases hs.each c hm with ⟨n', i', hb', hlo', hup'⟩ | ⟨v0, v1, d, hb', -⟩
      · rw [hup', ← hlo', hlo]
      · rw [hb] at hb'
        exact absurd hb' (by simp)
    rcases hch with rfl | ⟨-, hall⟩
    · have hg := get_named hs hm hb hlo hup (noScaling, [])
      have hinv : dictGet? (inverseChoices (cs.foldl addScale (noScaling, [])).2) n = some i := by
        rw [inverse_get]
        cases hfd : (cs.foldl addScale (noScaling, [])).2.reverse.find? fun e => e.2.toStr == n with
        | none =>
          have := List.find?_eq_none.1 hfd _ (List.mem_reverse.2 (dictGet?_mem hg))
          exact absurd this (by simp [Choice.toStr])
        | some e =>
          have hmem := List.mem_reverse.1 (List.mem_of_find?_eq_some hfd)
          have hname : e.2.toStr = n := by simpa using List.find?_some hfd
          obtain ⟨c', hm', n', hb', hlo', -, he⟩ := mem_table hs.each e hmem
          have hn' : n' = n := by rw [he] at hname; exact hname
          have := huniq c' hm' (by rw [hb', hn'])
          rw [hlo', hlo] at this
          have hi : e.1 = i := by exact_mod_cast Option.some.inj this
          simp [hi]
      dsimp only [Conversion.factory, Conversion.scaledToRaw, Conversion.choiceToNumber]
      rw [hinv]
      rfl
    · obtain ⟨v0, v1, d, hb', -⟩ := hall c hm
      rw [hb] at hb'
      exact absurd hb' (by simp)
  · intro c hm v0 v1 d hb raw
    dsimp only
    have hi : Increasing c := by
      rcases hs.each c hm with ⟨n, i, hb', -⟩ | h
      · rw [hb] at hb'
        exact absurd hb' (by simp)
      · exact h
    have hpos : 0 < v1 / d := by
      obtain ⟨w0, w1, e, hb', hp, -⟩ := hi
      rw [hb] at hb'
      obtain ⟨-, rfl, rfl⟩ := ScaleBody.linear.inj hb'
      exact hp
    rw [scaling_linear hs hm hi hb (noScaling, [])]
    dsimp only [scalingOf]
    have hval : (v0 + v1 * raw) / d = raw * (v1 / d) + v0 / d := by ring
    rw [hval]
    have mono : ∀ x y : Rat, x * (v1 / d) + v0 / d ≤ y * (v1 / d) + v0 / d ↔ x ≤ y := by
      intro x y
      rw [add_le_add_iff_right, mul_le_mul_iff_left₀ hpos]
    constructor
    · intro h
      constructor
      · intro mn hmn
        obtain ⟨l, hl, rfl⟩ := Option.map_eq_some_iff.1 hmn
        exact (mono _ _).2 (h.1 l hl)
      · intro mx hmx
        obtain ⟨u, hu, rfl⟩ := Option.map_eq_some_iff.1 hmx
        exact (mono _ _).2 (h.2 u hu)
    · intro h
      exact ⟨fun l hl => (mono _ _).1 (h.1 _ (by rw [hl]; rfl)),
        fun u hu => (mono _ _).1 (h.2 _ (by rw [hu]; rfl))⟩
  · intro hall
    dsimp only
    rw [scaling_other hall]
    refine ⟨rfl, rfl, fun raw hout => ?_⟩
    have hf := factory_scale 1 0 isFloat
    have hnum : (BaseConv.factory 1 0 isFloat).rawToScaled (raw : Rat) = raw := by
      rw [rawToScaled_eq, hf.1, hf.2.1]
      ring
    rcases hch with rfl | ⟨rfl, -⟩
    · have hnone : ∀ c' ∈ cs, NamesOne c' → c'.lower ≠ some (raw : Rat) := by
        intro c' hm' hn e
        refine hout c' hm' ?_
        obtain ⟨n, i, hb, hlo, hup⟩ := hn
        have hri : (i : Rat) = raw := by
          rw [hlo] at e
          exact Option.some.inj e
        exact ⟨fun l h => by rw [hlo] at h; rw [← Option.some.inj h, hri],
          fun u h => by rw [hup] at h; rw [← Option.some.inj h, hri]⟩
      dsimp only [Conversion.factory, Conversion.rawToScaled, noScaling]
      rw [pyInt_int, if_pos rfl, get_other hs.each raw hnone]
      change Value.num _ = _
      rw [hnum]
    · dsimp only [Conversion.factory, Conversion.rawToScaled, noScaling]
      rw [hnum]

/-- C51: the values of a signal with a linear function, which may be a floating point number, are
computed by it. -/
theorem C51_linear (F : FloatRead) (m : CompuMethod) (isFloat : Bool) (cs : List ScaleContent)
    (hk : m.category = some .linear) (hsays : List.Forall₂ (ScaleSays F) m.scales cs)
    (ha : CategoryAllows .linear cs) :
    ∃ L, loadSignal F (some m) isFloat = .ok L ∧ ∀ c ∈ cs, ∀ v0 v1 d, c.body = .linear v0 v1 d →
      ∀ raw : Rat, L.conversion.rawToScaled raw true = .num ((v0 + v1 * raw) / d) := by
  have hl : ∃ s, loadLinear F m.scales = .ok s ∧ ∀ c ∈ cs, ∀ v0 v1 d, c.body = .linear v0 v1 d →
      s = scalingOf c v0 v1 d := by
    generalize m.scales = ss at hsays
    cases hsays with
    | nil => exact ⟨_, rfl, nofun⟩
    | @cons s c ss cs' h1 h2 =>
      cases h2 with
      | cons => exact absurd ha.1 (by simp)
      | nil =>
        obtain ⟨v0, v1, d, hb, -, hlu⟩ := ha.2 c (by simp)
        refine ⟨_, (linearScale_text h1 hb hlu).2, fun c' hc' v0' v1' d' hb' => ?_⟩
        obtain rfl := List.mem_singleton.1 hc'
        rw [hb] at hb'
        obtain ⟨rfl, rfl, rfl⟩ := ScaleBody.linear.inj hb'
        rfl
  obtain ⟨s, hs, hc⟩ := hl
  have hsys : loadSystemSignal F (some m) = .ok (s, none) := by
    unfold loadSystemSignal
    dsimp only
    rw [hk]
    dsimp only
    rw [hs]
    rfl
  refine ⟨_, by unfold loadSignal; rw [hsys]; rfl, fun c hm v0 v1 d hb raw => ?_⟩
  have hf := factory_scale s.factor s.offset isFloat
  dsimp only [Conversion.factory, Conversion.rawToScaled]
  rw [rawToScaled_eq, hf.1, hf.2.1, hc c hm v0 v1 d hb]
  dsimp only [scalingOf]
  congr 1
  ring

/-- C51: a signal without compu method, with one without category or with one of another category
has no limits, and its values are shown as they are. -/
theorem C51_no_scaling (F : FloatRead) (m : Option CompuMethod) (isFloat : Bool)
    (h : ∀ m', m = some m' → m'.category = none ∨ m'.category = some .other) :
    ∃ L, loadSignal F m isFloat = .ok L ∧ L.minimum = none ∧ L.maximum = none ∧
      ∀ raw : Rat, L.conversion.rawToScaled raw true = .num raw := by
  have hl : loadSystemSignal F m = .ok (noScaling, none) := by
    cases m with
    | none => rfl
    | some m =>
      unfold loadSystemSignal
      dsimp only
      rcases h m rfl with e | e <;> rw [e]
  refine ⟨_, by unfold loadSignal; rw [hl]; rfl, rfl, rfl, fun raw => ?_⟩
  have hf := factory_scale 1 0 isFloat
  dsimp only [Conversion.factory, Conversion.rawToScaled, noScaling]
  rw [rawToScaled_eq, hf.1, hf.2.1]
  simp

/-- C51: octal numbers with a sign are read as decimal ones, and a superfluous zero makes a floating
point number unreadable, although `float` knows its value. -/
theorem C51_awkward_numbers (F : FloatRead) (h17 : F.float "-017".toList = some (-17))
    (h5 : F.float "00.5".toList = some (1 / 2)) :
    (ElementText F "-017".toList (-15) ∧ parseNumber F "-017".toList true = .ok (-17)) ∧
    (ElementText F "00.5".toList (1 / 2) ∧ parseNumber F "00.5".toList true = .error .valueError) := by
  refine ⟨⟨⟨[], "-017".toList, [], by simp, by simp, ?_⟩, ?_⟩,
    ⟨⟨[], "00.5".toList, [], by simp, by simp, ?_⟩, ?_⟩⟩
  · have h := IntegerText.octal Sign.minus (ds := [1, 7]) (by simp) (by decide)
    have e : (-(Nat.ofDigits 8 [1, 7].reverse : Nat) : Int) = -15 := by decide
    rw [e] at h
    exact_mod_cast NumberText.integer (F := F) h
  · have : parseNumber F "-017".toList true =
        (orValueError (F.float "-017".toList)).bind fun v =>
          if true = false ∧ v ≠ (pyInt v : Int) then .error .valueError else .ok v := rfl
    rw [this, h17]
    rfl
  · exact NumberText.fraction ⟨by decide, by decide⟩ h5
  · rfl

namespace ArxmlScaleExample

/-- A decreasing linear function: the limits of the signal exclude every value. -/
def decreasing : CompuMethod :=
  { category := some .linear,
    scales := [{ lower := some "0".toList, upper := some "10".toList,
                 coeffs := some { numerators := ["0".toList, "-1".toList], denominators := ["1".toList] } }] }

/-- Two linear functions, `raw` up to 10 and `2 * raw - 10` from there on. -/
def segments : CompuMethod :=
  { category := some .linearAndTexttable,
    scales := [{ lower := some "0".toList, upper := some "10".toList,
                 coeffs := some { numerators := ["0".toList, "1".toList], denominators := ["1".toList] } },
               { lower := some "11".toList, upper := some "20".toList,
                 coeffs := some { numerators := ["-10".toList, "2".toList], denominators := ["1".toList] } }] }

/-- A name for the raw values 14 and 15. -/
def interval (k : Category) : CompuMethod :=
  { category := some k,
    scales := [{ lower := some "14".toList, upper := some "15".toList, vt := some "error" }] }

/-- A name for the raw values from 14 on, or up to 14. -/
def halfOpen (below : Bool) : CompuMethod :=
  { category := some .linearAndTexttable,
    scales := [{ lower := if below then none else some "14".toList,
                 upper := if below then some "14".toList else none, vt := some "error" }] }

/-- Temperatures in steps of half a degree from -40.5, two names. -/
def temperature : CompuMethod :=
  { category := some .linearAndTexttable,
    scales := [{ lower := some "0".toList, upper := some " 0xF0 ".toList,
                 coeffs := some { numerators := ["-81".toList, "1".toList], denominators := ["2".toList] } },
               { lower := some "0376".toList, upper := some "254".toList, vt := some "error" },
               { lower := some "255".toList, upper := some "0xff".toList, vt := some "absent" }] }

def temperatureContent : List ScaleContent :=
  [{ lower := some 0, upper := some 240, body := .linear (-81) 1 2 },
   { lower := some 254, upper := some 254, body := .name "error" },
   { lower := some 255, upper := some 255, body := .name "absent" }]

theorem not_awkward {t : Chars} (hf : ∀ c ∈ t, c.toLower ≠ '.' ∧ c.toLower ≠ 'e')
    (hs : (∀ c ∈ t, c.toLower ≠ '+' ∧ c.toLower ≠ '-') ∨ ∀ c ∈ t, c.toLower ≠ '0') : ¬ Awkward t := by
  rintro ⟨a, w, b, rfl, -, h⟩
  have mem : ∀ c, c ∈ w.map Char.toLower → ∃ x ∈ a ++ w ++ b, x.toLower = c := by
    intro c hc
    obtain ⟨x, hx, rfl⟩ := List.mem_map.1 hc
    exact ⟨x, by simp [hx], rfl⟩
  rcases h with ⟨c, d, r, e, hc, -⟩ | ⟨⟨-, hp⟩, -⟩
  · obtain ⟨x, hx, ex⟩ := mem c (by rw [e]; simp)
    obtain ⟨y, hy, ey⟩ := mem '0' (by rw [e]; simp)
    rcases hs with hs | hs
    · rcases hc with rfl | rfl
      · exact (hs x hx).1 ex
      · exact (hs x hx).2 ex
    · exact hs y hy ey
  · rcases hp with hp | hp
    · obtain ⟨x, hx, ex⟩ := mem _ hp
      exact (hf x hx).1 ex
    · obtain ⟨x, hx, ex⟩ := mem _ hp
      exact (hf x hx).2 ex

theorem plain {F : FloatRead} {a w b t : Chars} {i : Int} (hw : IntegerText (w.map Char.toLower) i)
    (ht : t = a ++ w ++ b) (hab : ∀ c ∈ a ++ b, c ∈ [' ', '\t', '\n', '\r'])
    (hf : ∀ c ∈ t, c.toLower ≠ '.' ∧ c.toLower ≠ 'e')
    (hs : (∀ c ∈ t, c.toLower ≠ '+' ∧ c.toLower ≠ '-') ∨ ∀ c ∈ t, c.toLower ≠ '0') :
    PlainNumber F t i :=
  ⟨⟨a, w, b, ht, hab, .integer hw⟩, not_awkward hf hs⟩

theorem temperature_says (F : FloatRead) : List.Forall₂ (ScaleSays F) temperature.scales temperatureContent := by
  have n0 : PlainNumber F "0".toList ((0 : Int) : Rat) :=
    plain (a := []) (w := "0".toList) (b := []) (.zero .none) rfl (by decide) (by decide) (by decide)
  have n240 : PlainNumber F " 0xF0 ".toList ((240 : Int) : Rat) :=
    plain (a := [' ']) (w := "0xF0".toList) (b := [' ']) (.hexadecimal .none (ds := [15, 0]) (by decide)
      (by decide)) rfl (by decide) (by decide) (by decide)
  have n81 : PlainNumber F "-81".toList ((-81 : Int) : Rat) :=
    plain (a := []) (w := "-81".toList) (b := []) (.decimal .minus (d := 8) (ds := [1]) (by decide) (by decide)) rfl
      (by decide) (by decide) (by decide)
  have n1 : PlainNumber F "1".toList ((1 : Int) : Rat) :=
    plain (a := []) (w := "1".toList) (b := []) (.decimal .none (d := 1) (ds := []) (by decide) (by decide)) rfl
      (by decide) (by decide) (by decide)
  have n2 : PlainNumber F "2".toList ((2 : Int) : Rat) :=
    plain (a := []) (w := "2".toList) (b := []) (.decimal .none (d := 2) (ds := []) (by decide) (by decide)) rfl
      (by decide) (by decide) (by decide)
  have n254' : PlainNumber F "0376".toList ((254 : Int) : Rat) :=
    plain (a := []) (w := "0376".toList) (b := []) (.octal .none (ds := [3, 7, 6]) (by decide) (by decide)) rfl
      (by decide) (by decide) (by decide)
  have n254 : PlainNumber F "254".toList ((254 : Int) : Rat) :=
    plain (a := []) (w := "254".toList) (b := []) (.decimal .none (d := 2) (ds := [5, 4]) (by decide) (by decide)) rfl
      (by decide) (by decide) (by decide)
  have n255 : PlainNumber F "255".toList ((255 : Int) : Rat) :=
    plain (a := []) (w := "255".toList) (b := []) (.decimal .none (d := 2) (ds := [5, 5]) (by decide) (by decide)) rfl
      (by decide) (by decide) (by decide)
  have n255' : PlainNumber F "0xff".toList ((255 : Int) : Rat) :=
    plain (a := []) (w := "0xff".toList) (b := []) (.hexadecimal .none (ds := [15, 15]) (by decide) (by decide)) rfl
      (by decide) (by decide) (by decide)
  refine .cons (.rational (t0 := "-81".toList) (t1 := "1".toList) (td := "2".toList)
    ?_ ?_ rfl rfl ?_ ?_ ?_ (by norm_num)) (.cons (.name ?_ ?_ rfl) (.cons (.name ?_ ?_ rfl) .nil))
  · exact_mod_cast n0
  · exact_mod_cast n240
  · exact_mod_cast n81
  · exact_mod_cast n1
  · exact_mod_cast n2
  · exact_mod_cast n254'
  · exact_mod_cast n254
  · exact_mod_cast n255
  · exact_mod_cast n255'

theorem supported : SupportedScales temperatureContent := by
  have hbad : ∀ l u v0 v1 d, ¬ NamesOne { lower := l, upper := u, body := .linear v0 v1 d } := by
    rintro l u v0 v1 d ⟨n, i, h, -⟩
    exact absurd h (by simp)
  have hbad' : ∀ l u n, ¬ Increasing { lower := l, upper := u, body := .name n } := by
    rintro l u n ⟨v0, v1, d, h, -⟩
    exact absurd h (by simp)
  refine ⟨?_, ?_, ?_⟩
  · intro c hc
    simp only [temperatureContent, List.mem_cons, List.not_mem_nil, or_false] at hc
    rcases hc with rfl | rfl | rfl
    · refine Or.inr ⟨-81, 1, 2, rfl, by norm_num, ?_⟩
      intro l u hl hu
      obtain rfl := Option.some.inj hl
      obtain rfl := Option.some.inj hu
      norm_num
    · exact Or.inl ⟨"error", 254, rfl, by simp, by simp⟩
    · exact Or.inl ⟨"absent", 255, rfl, by simp, by simp⟩
  · simp [temperatureContent, hbad]
  · simp [temperatureContent, hbad']

end ArxmlScaleExample

open ArxmlScaleExample

/-- C51: with a decreasing linear function the limits are exchanged: no number is allowed. -/
theorem C51_decreasing (F : FloatRead) : ∃ L, loadSignal F (some decreasing) false = .ok L ∧
    L.minimum = some 0 ∧ L.maximum = some (-10) ∧
    L.conversion.rawToScaled 4 true = .num (-4) :=
  ⟨_, rfl, by decide +kernel, by decide +kernel, by decide +kernel⟩

/-- C51: with several linear functions the last one is used for all raw values. -/
theorem C51_segments (F : FloatRead) : ∃ L, loadSignal F (some segments) false = .ok L ∧
    L.conversion.rawToScaled 4 true = .num (-2) ∧ L.minimum = some 12 :=
  ⟨_, rfl, by decide +kernel, by decide +kernel⟩

/-- C51: a name for several raw values is an error in a `TEXTTABLE` and forgotten otherwise. -/
theorem C51_named_interval (F : FloatRead) :
    loadSignal F (some (interval .texttable)) false = .error .assertionError ∧
    ∃ L, loadSignal F (some (interval .linearAndTexttable)) false = .ok L ∧
      L.conversion.rawToScaled 14 true = .num 14 :=
  ⟨rfl, _, rfl, by decide +kernel⟩

/-- C51: a name for all raw values from a limit on, or up to a limit, is given to the limit only. -/
theorem C51_half_open (F : FloatRead) (below : Bool) :
    ∃ L, loadSignal F (some (halfOpen below)) false = .ok L ∧
      L.conversion.rawToScaled 14 true = .named { value := 14, name := "error" } ∧
      L.conversion.rawToScaled (if below then 13 else 15) true = .num (if below then 13 else 15) := by
  cases below
  · exact ⟨_, rfl, by decide +kernel, by decide +kernel⟩
  · exact ⟨_, rfl, by decide +kernel, by decide +kernel⟩

example (F : FloatRead) := C51_scales_partial F temperature .linearAndTexttable false temperatureContent
  rfl (temperature_says F) supported trivial

/-- The raw value 100 is 9.5 degrees, 254 is an error. -/
example (F : FloatRead) : ∃ L, loadSignal F (some temperature) false = .ok L ∧
    L.conversion.rawToScaled 100 true = .num (19 / 2) ∧
    L.conversion.rawToScaled 254 true = .named { value := 254, name := "error" } ∧
    L.minimum = some (-81 / 2) ∧ L.maximum = some (159 / 2) :=
  ⟨_, rfl, by decide +kernel, by decide +kernel, by decide +kernel, by decide +kernel⟩

/-- A number in hexadecimal notation with blanks around it. -/
example (F : FloatRead) : PlainNumber F " 0xF0 ".toList 240 := by
  have := plain (F := F) (a := [' ']) (w := "0xF0".toList) (b := [' ']) (t := " 0xF0 ".toList)
    (.hexadecimal .none (ds := [15, 0]) (by decide) (by decide)) rfl (by decide) (by decide) (by decide)
  exact_mod_cast this

/-- A floating point number. -/
example : PlainNumber { float := fun _ => some (1 / 4), fromHex := fun _ => none } "2.5E-1".toList (1 / 4) := by
  refine ⟨⟨[], "2.5E-1".toList, [], rfl, by simp, .fraction ⟨by decide, by decide⟩ rfl⟩, ?_⟩
  rintro ⟨a, w, b, e, -, h⟩
  have hz : '0' ∉ w.map Char.toLower := by
    intro hz
    obtain ⟨x, hx, ex⟩ := List.mem_map.1 hz
    have : x ∈ "2.5E-1".toList := by rw [e]; simp [hx]
    have key : ∀ y ∈ "2.5E-1".toList, y.toLower ≠ '0' := by decide
    exact key x this ex
  rcases h with ⟨c, d, r, e', -⟩ | ⟨-, d, r, e', -⟩
  · exact hz (by rw [e']; simp)
  · exact hz (by rw [e']; simp)

example (F : FloatRead) := C51_no_scaling F none false (fun m h => absurd h (by simp))

/-- A way of reading floating point numbers as in `C51_awkward_numbers`. -/
example : (fun t : Chars => if t = "-017".toList then some (-17 : Rat) else some (1 / 2)) "00.5".toList =
    some (1 / 2) := by decide +kernel

end Cantools
