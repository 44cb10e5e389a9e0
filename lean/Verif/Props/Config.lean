import Verif.Lemmas.Config
/-!
# Properties of the configuration of the MQTT bridge (C77, C78)

Configuration files are arbitrary bytes; `Doc` is what such bytes are taken for (C115).
-/

namespace Elk.Props
open Elk.Spec

/-! ## C77: what a configuration file says -/

/-- **C77** Whatever is read from a configuration file is what the file says: every value comes from
the field with the documented name, which occurs once; the port defaults to 1883 and the client's
name to nothing; and the areas and zones are exactly those listed. -/
theorem C77_sound {j : Doc} {s : Setup} (h : Setup.deserialize j = .ok s) : Describes j s := by
  unfold Setup.deserialize ElkCfg.deserialize at h
  simp only [R_bind_ok, required_ok, defaulted_ok, optional_ok, textField_ok, toU32_ok, toU16_ok] at h
  obtain ⟨⟨elk, hp⟩, ⟨ej, he, sn, h1, code, ⟨_, h2, rfl⟩, hp', h3, ar,
    ⟨aj, h4, h4'⟩, zn, ⟨zj, h5, h5'⟩, h6⟩, mj, ⟨_, hm, hmj⟩, ci, h7, ho, h8, po, h9, un,
    h10, pw, h11, tp, h12, hd, h13, h14⟩ := h
  cases h6
  cases hmj
  cases h14
  refine ⟨ej, _, he, ⟨h1, h2, h3, ⟨_, h4, readMap_ok areaCfg_ok h4'⟩,
    ⟨_, h5, readMap_ok zoneCfg_ok h5'⟩⟩, hm, h7, h8, ?_, h10, h11, h12, h13⟩
  · rcases h9 with ⟨_, h9, rfl⟩ | ⟨h9, rfl⟩
    · exact .inl h9
    · exact .inr ⟨h9, rfl⟩

/-- **C77** Conversely every file of the documented form is read, and yields the setup it describes
(the order of areas and zones aside, which are kept in maps). -/
theorem C77_complete {j : Doc} {s : Setup} (h : Describes j s) :
    ∃ s', Setup.deserialize j = .ok s' ∧ SameSetup s' s := by
  obtain ⟨ej, mj, he, ⟨h1, h2, h3, ⟨aj, h4, h4'⟩, ⟨zj, h5, h5'⟩⟩, hm, h7, h8, h9, h10, h11, h12,
    h13⟩ := h
  obtain ⟨ar, ha, pa⟩ := readMap_total areaCfg_ok h4'
  obtain ⟨zn, hz, pz⟩ := readMap_total zoneCfg_ok h5'
  refine ⟨{ s with cfg := { s.cfg with elk := { s.cfg.elk with areas := ar, zones := zn } } }, ?_,
    pa, pz, rfl⟩
  unfold Setup.deserialize ElkCfg.deserialize
  simp only [R_bind_ok, required_ok, defaulted_ok, optional_ok, textField_ok, toU32_ok, toU16_ok]
  refine ⟨⟨⟨s.cfg.elk.serialNumber, s.cfg.elk.code, ar, zn⟩, s.hostPort⟩, ⟨ej, he, _, h1,
    _, ⟨_, h2, rfl⟩, _, h3, _, ⟨_, h4, ha⟩, _, ⟨_, h5, hz⟩, rfl⟩, mj, ⟨_, hm, rfl⟩,
    s.clientId, h7, _, h8, s.port, ?_, _, h10, _, h11, _, h12, _, h13, rfl⟩
  · rcases h9 with h9 | ⟨h9, h9'⟩
    · exact .inl ⟨_, h9, rfl⟩
    · exact .inr ⟨h9, UInt16.toNat_inj.mp h9'⟩

/-- **C77** The areas and zones that are read have distinct numbers. -/
theorem C77_map {j : Doc} {s : Setup} (h : Setup.deserialize j = .ok s) : MapCfg s.cfg := by
  obtain ⟨_, _, _, he, _⟩ := C77_sound h
  obtain ⟨_, _, ha⟩ := he.areas
  obtain ⟨_, _, hz⟩ := he.zones
  exact ⟨ha.keys, hz.keys⟩

/-- A configuration file, byte by byte (its text is in Tests/Files.lean). -/
def sampleFile : Bytes :=
  [123, 10, 32, 32, 34, 101, 108, 107, 34, 58, 32, 123, 10, 32, 32, 32, 32, 34, 115, 101, 114,
   105, 97, 108, 78, 117, 109, 98, 101, 114, 34, 58, 32, 34, 52, 50, 34, 44, 10, 32, 32, 32, 32,
   34, 99, 111, 100, 101, 34, 58, 32, 49, 50, 51, 52, 44, 10, 32, 32, 32, 32, 34, 104, 111, 115,
   116, 80, 111, 114, 116, 34, 58, 32, 34, 101, 108, 107, 58, 50, 49, 48, 49, 34, 44, 10, 32, 32,
   32, 32, 34, 97, 114, 101, 97, 115, 34, 58, 32, 123, 34, 49, 34, 58, 32, 123, 34, 110, 97, 109,
   101, 34, 58, 32, 34, 104, 92, 117, 48, 48, 54, 102, 109, 101, 34, 125, 125, 44, 10, 32, 32, 32,
   32, 34, 122, 111, 110, 101, 115, 34, 58, 32, 123, 10, 32, 32, 32, 32, 32, 32, 34, 49, 34, 58,
   32, 123, 34, 110, 97, 109, 101, 34, 58, 32, 34, 100, 111, 111, 114, 34, 44, 32, 34, 98, 105,
   110, 97, 114, 121, 83, 101, 110, 115, 111, 114, 68, 101, 118, 105, 99, 101, 67, 108, 97, 115,
   115, 34, 58, 32, 34, 100, 111, 111, 114, 34, 125, 44, 10, 32, 32, 32, 32, 32, 32, 34, 50, 34,
   58, 32, 123, 34, 98, 105, 110, 97, 114, 121, 83, 101, 110, 115, 111, 114, 68, 101, 118, 105,
   99, 101, 67, 108, 97, 115, 115, 34, 58, 32, 34, 109, 111, 116, 105, 111, 110, 34, 44, 32, 34,
   99, 111, 108, 111, 114, 34, 58, 32, 91, 45, 51, 101, 49, 44, 32, 102, 97, 108, 115, 101, 93,
   44, 32, 34, 110, 97, 109, 101, 34, 58, 32, 34, 104, 97, 108, 108, 34, 125, 10, 32, 32, 32, 32,
   125, 10, 32, 32, 125, 44, 10, 32, 32, 34, 109, 113, 116, 116, 34, 58, 32, 123, 34, 104, 111,
   115, 116, 34, 58, 32, 34, 98, 114, 111, 107, 101, 114, 34, 44, 32, 34, 104, 97, 68, 105, 115,
   99, 111, 118, 101, 114, 121, 80, 114, 101, 102, 105, 120, 34, 58, 32, 34, 104, 111, 109, 101,
   97, 115, 115, 105, 115, 116, 97, 110, 116, 34, 44, 32, 34, 116, 111, 112, 105, 99, 80, 114,
   101, 102, 105, 120, 34, 58, 32, 110, 117, 108, 108, 125, 10, 125, 10]

/-- What it says. -/
def sampleSetup : Setup :=
  { cfg :=
      { elk := { serialNumber := bs "42", code := 1234, areas := [(1, ⟨bs "home"⟩)],
                 zones := [(1, ⟨bs "door", bs "door"⟩), (2, ⟨bs "hall", bs "motion"⟩)] }
        mqtt := { topicPrefix := none, haDiscoveryPrefix := some (bs "homeassistant") } }
    hostPort := bs "elk:2101", clientId := [], host := bs "broker", port := 1883,
    username := none, password := none }

/-- The result of reading a file, for comparisons. -/
def readsAs (file : Bytes) (s : Setup) : Bool :=
  match Doc.parse file with
  | some d =>
    match Setup.deserialize d with
    | .ok t => decide (t = s)
    | .error _ => false
  | none => false

theorem readsAs_iff {file : Bytes} {s : Setup} :
    readsAs file s = true ↔ ∃ d, Doc.parse file = some d ∧ Setup.deserialize d = .ok s := by
  unfold readsAs
  cases h : Doc.parse file with
  | none => simp
  | some d =>
    dsimp only
    split
    · rename_i t ht
      simp [ht]
    · rename_i e he
      simp [he]

/-- Non-vacuity: the sample file is read as the sample setup. -/
theorem sampleFile_read :
    ∃ d, Doc.parse sampleFile = some d ∧ Setup.deserialize d = .ok sampleSetup :=
  readsAs_iff.mp (by decide +kernel)

/-- Non-vacuity of `C77_complete`. -/
example : ∃ d, Describes d sampleSetup :=
  let ⟨d, _, h⟩ := sampleFile_read
  ⟨d, C77_sound h⟩

/-! ## C78: when the program starts -/

/-- **C78** The program gets as far as dialing the panel exactly when it has one argument, which names
a file with a configuration, and user name and password for the broker are both given or both
missing. -/
theorem C78_main (args : List Bytes) (file : Bytes → Option Bytes) (p : Prog) :
    Prog.main args file = .ok p ↔ ∃ path text j s, args = [path] ∧ file path = some text ∧
      Doc.parse text = some j ∧ Setup.deserialize j = .ok s ∧ (s.username = none ↔ s.password = none) ∧ p = .dialing s := by
  have cred : ∀ s : Setup, (∃ c, s.credentials = .ok c) ↔
      (s.username = none ↔ s.password = none) := by
    intro s
    unfold Setup.credentials
    cases s.username <;> cases s.password <;> simp
  have some_of : ∀ {α : Type} {o : Option α} {a : α}, expectSome o = .ok a → o = some a := by
    intro α o a h
    cases o with
    | none => cases h
    | some x => cases h; rfl
  constructor
  · intro h
    match args with
    | [] => cases h
    | _ :: _ :: _ => cases h
    | [path] =>
      unfold Prog.main at h
      simp only [P_bind_ok, unwrapR_ok] at h
      obtain ⟨t, h1, j, h1', s, h2, c, h3, h4⟩ := h
      cases h4
      exact ⟨path, t, j, s, rfl, some_of h1, some_of h1', h2, (cred s).mp ⟨c, h3⟩, rfl⟩
  · rintro ⟨path, t, j, s, rfl, h1, h1', h2, h3, rfl⟩
    obtain ⟨c, hc⟩ := (cred s).mpr h3
    unfold Prog.main
    simp only [P_bind_ok, unwrapR_ok]
    exact ⟨t, by rw [h1]; rfl, j, by rw [h1']; rfl, s, h2, c, hc, rfl⟩

/-- Non-vacuity: started with the sample file, the program dials. -/
example : Prog.main [bs "cfg.json"] (fun _ => some sampleFile) = .ok (.dialing sampleSetup) :=
  let ⟨_, h, h'⟩ := sampleFile_read
  (C78_main _ _ _).mpr ⟨_, _, _, _, rfl, rfl, h, h', by decide, rfl⟩

end Elk.Props
