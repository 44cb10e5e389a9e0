import Verif.Props.Config
/-!
# The text of a configuration file (C115)

C77 says what is read from a JSON value.  Here: which bytes are taken for which JSON value, against the
grammar of RFC 8259 (`Spec.Rfc`), and the two together: which bytes make the program start.
-/

namespace Elk.Props
open Elk.Spec

/-- **C115** Bytes are taken for a JSON value exactly if they are, by RFC 8259, a text for that value:
nothing else is accepted, all of it is, and at any depth of nesting. -/
theorem C115_text {s : Bytes} {d : Doc} : Doc.parse s = some d ↔ Rfc.Text d s := docParse_iff

/-- **C115** No bytes are a text for two values. -/
theorem C115_unambiguous {s : Bytes} {d d' : Doc} (h : Rfc.Text d s) (h' : Rfc.Text d' s) : d = d' := by
  have := docParse_iff.mpr h
  rw [docParse_iff.mpr h'] at this
  cases this
  rfl

/-- **C115** What is written between quotation marks is taken for a text exactly if, with its escapes
replaced by what they stand for, it is the UTF-8 encoding of some characters; the text is these. -/
theorem C115_string {raw t : Bytes} : Doc.text raw = some t ↔ Rfc.Says raw t := text_iff

/-- **C115** The program gets as far as dialing the panel exactly when it has one argument, and this
names a file with a JSON text that describes a setup, in which user name and password for the broker
are both given or both missing.  It then works with that setup. -/
theorem C115_starts (args : List Bytes) (file : Bytes → Option Bytes) :
    (∃ p, Prog.main args file = .ok p) ↔ ∃ path text d s, args = [path] ∧ file path = some text ∧
      Rfc.Text d text ∧ Describes d s ∧ (s.username = none ↔ s.password = none) := by
  constructor
  · rintro ⟨p, h⟩
    obtain ⟨path, t, d, s, h1, h2, h3, h4, h5, _⟩ := (C78_main _ _ _).mp h
    exact ⟨path, t, d, s, h1, h2, C115_text.mp h3, C77_sound h4, h5⟩
  · rintro ⟨path, t, d, s, h1, h2, h3, h4, h5⟩
    obtain ⟨s', h6, h7⟩ := C77_complete h4
    refine ⟨_, (C78_main _ _ _).mpr ⟨path, t, d, s', h1, h2, C115_text.mpr h3, h6, ?_, rfl⟩⟩
    rw [congrArg Setup.username h7.rest, congrArg Setup.password h7.rest]
    exact h5

/-- **C115** What it works with is what the file says, up to the order of areas and zones. -/
theorem C115_setup {args : List Bytes} {file : Bytes → Option Bytes} {p : Prog}
    (h : Prog.main args file = .ok p) {path text : Bytes} (ha : args = [path])
    (hf : file path = some text) {d : Doc} (hd : Rfc.Text d text) {s : Setup} (hs : Describes d s) :
    ∃ s', p = .dialing s' ∧ SameSetup s' s := by
  obtain ⟨path', t, d', s', h1, h2, h3, h4, _, rfl⟩ := (C78_main _ _ _).mp h
  rw [ha] at h1
  cases h1
  rw [hf] at h2
  cases h2
  obtain ⟨s'', h6, h7⟩ := C77_complete hs
  rw [C115_unambiguous hd (C115_text.mp h3), h4] at h6
  cases h6
  exact ⟨_, rfl, h7⟩

/-- Non-vacuity: the sample file is such a text. -/
theorem C115_sample : ∃ d, Rfc.Text d sampleFile ∧ Describes d sampleSetup :=
  let ⟨d, h, h'⟩ := sampleFile_read
  ⟨d, C115_text.mp h, C77_sound h'⟩

/-- Non-vacuity: things that are no JSON. -/
example : ∀ s ∈ ["", "01", "1.", "-", "[1,]", "[,1]", "{\"a\":1,}", "{\"a\" 1}", "{a:1}", "[1", "1 2",
    "nul", "\"\\x\"", "\"a", "\"\t\"", "+1", ".5", "1e", "// c\n1", "'a'", "\"\\u12g4\"", "[1}"],
    ¬ ∃ d, Rfc.Text d (bs s) := by
  have : ∀ s ∈ ["", "01", "1.", "-", "[1,]", "[,1]", "{\"a\":1,}", "{\"a\" 1}", "{a:1}", "[1", "1 2",
    "nul", "\"\\x\"", "\"a", "\"\t\"", "+1", ".5", "1e", "// c\n1", "'a'", "\"\\u12g4\"", "[1}"],
    (Doc.parse (bs s)).isSome = false := by decide +kernel
  rintro s hs ⟨d, h⟩
  have := this s hs
  rw [C115_text.mpr h] at this
  cases this

/-- Non-vacuity: escapes, a pair of surrogates, and what is no text: half a pair, and bytes that are
not UTF-8. -/
example :
    Rfc.Says (bs "a\\n\\u00e9\\/\\ud83d\\ude00" ++ [0xC3, 0xA9])
      (bs "a\n" ++ [0xC3, 0xA9] ++ bs "/" ++ [0xF0, 0x9F, 0x98, 0x80] ++ [0xC3, 0xA9]) ∧
    (¬ ∃ t, Rfc.Says (bs "\\ud83d") t) ∧ (¬ ∃ t, Rfc.Says (bs "\\ude00\\ud83d") t) ∧
    (¬ ∃ t, Rfc.Says [0xC0, 0x80] t) ∧ ¬ ∃ t, Rfc.Says [0xED, 0xA0, 0x80] t := by
  have : ∀ raw ∈ [bs "\\ud83d", bs "\\ude00\\ud83d", [0xC0, 0x80], [0xED, 0xA0, 0x80]],
      ¬ ∃ t, Rfc.Says raw t := by
    have key : ∀ raw ∈ [bs "\\ud83d", bs "\\ude00\\ud83d", [0xC0, 0x80], [0xED, 0xA0, 0x80]],
      (Doc.text raw).isSome = false := by decide +kernel
    rintro raw hr ⟨t, h⟩
    have := key raw hr
    rw [C115_string.mpr h] at this
    cases this
  exact ⟨C115_string.mp (by decide +kernel), this _ (by simp), this _ (by simp), this _ (by simp),
    this _ (by simp)⟩

end Elk.Props
