import Verif.Spec.Legible
import Verif.Lemmas.DebugMsg
/-!
# Lemmas: texts that are legible
-/

namespace Elk
open Elk.Spec

instance (b : UInt8) : Decidable (Printable b) := by unfold Printable; infer_instance
instance (t : Bytes) : Decidable (Legible t) := by unfold Legible; infer_instance

instance (f : FieldValue) : Decidable (LegibleField f) := by
  cases f <;> unfold LegibleField <;> infer_instance
instance (r : Record) : Decidable (LegibleRecord r) := by unfold LegibleRecord; infer_instance

theorem legible_nil : Legible [] := nofun

theorem legible_append {a b : Bytes} : Legible (a ++ b) ↔ Legible a ∧ Legible b := by
  unfold Legible
  simp only [List.mem_append]
  exact ⟨fun h => ⟨fun x hx => h x (.inl hx), fun x hx => h x (.inr hx)⟩,
    fun h x hx => hx.elim (h.1 x) (h.2 x)⟩

theorem legible_cons {a : UInt8} {b : Bytes} : Legible (a :: b) ↔ (Printable a ∨ a = 0x0a) ∧ Legible b := by
  unfold Legible
  simp

theorem legible_flatMap {α : Type} {f : α → Bytes} {l : List α} (h : ∀ a ∈ l, Legible (f a)) :
    Legible (l.flatMap f) := by
  intro b hb
  obtain ⟨a, ha, hb⟩ := List.mem_flatMap.mp hb
  exact h a ha b hb

theorem legible_printable {t : Bytes} (h : ∀ b ∈ t, Printable b) : Legible t := fun b hb => .inl (h b hb)

theorem lettery_printable {b : UInt8} (h : Lettery b) : Printable b := by
  have key : ∀ n : Fin 256, Lettery (UInt8.ofNat n) → Printable (UInt8.ofNat n) := by decide +kernel
  have := key ⟨b.toNat, b.toNat_lt⟩
  simp only [UInt8.ofNat_toNat] at this
  exact this h

theorem word_legible {w : Bytes} (h : IsWord w) : Legible w := fun b hb => .inl (lettery_printable (h.2 b hb))

theorem decStr_printable (n : Nat) : ∀ b ∈ decStr n, Printable b :=
  fun b hb => lettery_printable (decStr_wordy n b hb)

theorem decStr_legible (n : Nat) : Legible (decStr n) := legible_printable (decStr_printable n)

theorem lowerHex_printable {n : UInt8} (h : n.toNat < 16) : Printable (lowerHex n) := by
  have key : ∀ n : Fin 16, Printable (lowerHex (UInt8.ofNat n)) := by decide +kernel
  have := key ⟨n.toNat, h⟩
  simpa only [UInt8.ofNat_toNat] using this

theorem lowHexGo_legible : ∀ fuel n, Legible (lowHexGo fuel n)
  | 0, _ => legible_nil
  | fuel + 1, n => by
    rw [lowHexGo]
    split
    · next h =>
      exact legible_cons.mpr ⟨.inl (lowerHex_printable (by simp; omega)), legible_nil⟩
    · exact legible_append.mpr ⟨lowHexGo_legible fuel _,
        legible_cons.mpr ⟨.inl (lowerHex_printable (by simp; omega)), legible_nil⟩⟩

theorem padLowHex_legible (w n : Nat) : Legible (padLowHex w n) := by
  unfold padLowHex
  refine legible_append.mpr ⟨?_, lowHexGo_legible _ _⟩
  intro b hb
  rw [(List.mem_replicate.mp hb).2]
  decide

theorem hexGap_legible (i : Nat) : Legible (hexGap i) := by
  unfold hexGap
  split
  · exact legible_nil
  · split <;> decide

theorem hexCells_legible : ∀ i row, Legible (hexCells i row)
  | _, [] => legible_nil
  | i, b :: row => by
    rw [hexCells]
    refine legible_append.mpr ⟨legible_append.mpr ⟨hexGap_legible i, ?_⟩, hexCells_legible _ row⟩
    have key : ∀ n : Fin 256, Legible [lowerHex (UInt8.ofNat n >>> 4), lowerHex (UInt8.ofNat n &&& 0x0f)] := by
      decide +kernel
    have := key ⟨b.toNat, b.toNat_lt⟩
    simpa only [UInt8.ofNat_toNat] using this

theorem hexBlank_legible : ∀ i k, Legible (hexBlank i k)
  | _, 0 => legible_nil
  | i, k + 1 => by
    rw [hexBlank]
    exact legible_append.mpr ⟨legible_append.mpr ⟨hexGap_legible i, by decide⟩, hexBlank_legible _ k⟩

theorem hexAscii_printable (b : UInt8) : Printable (hexAscii b) := by
  have key : ∀ n : Fin 256, Printable (hexAscii (UInt8.ofNat n)) := by decide +kernel
  have := key ⟨b.toNat, b.toNat_lt⟩
  simpa only [UInt8.ofNat_toNat] using this

theorem hexRow_legible (i : Nat) (row : Bytes) : Legible (hexRow i row) := by
  unfold hexRow
  simp only [legible_append]
  refine ⟨⟨⟨⟨⟨padLowHex_legible _ _, by decide⟩, hexCells_legible _ _⟩, hexBlank_legible _ _⟩, by decide⟩, ?_⟩
  intro b hb
  obtain ⟨c, _, rfl⟩ := List.mem_map.mp hb
  exact .inl (hexAscii_printable c)

theorem hexRows_legible : ∀ fuel i b, Legible (hexRows fuel i b)
  | 0, _, _ => legible_nil
  | fuel + 1, i, b => by
    rw [hexRows]
    split
    · exact hexRow_legible i b
    · exact legible_append.mpr ⟨legible_append.mpr ⟨hexRow_legible _ _, by decide⟩, hexRows_legible _ _ _⟩

theorem hexDump_legible (b : Bytes) : Legible (hexDump b) := by
  unfold hexDump
  simp only [legible_append]
  refine ⟨⟨⟨⟨⟨⟨by decide, decStr_legible _⟩, by decide⟩, padLowHex_legible _ _⟩, by decide⟩, by decide⟩, ?_⟩
  split
  · exact legible_nil
  · exact hexRows_legible _ _ _

/-- All in ASCII, printable or not: what is not is escaped. -/
def Narrow (t : Bytes) : Prop := ∀ b ∈ t, b.toNat < 128

theorem narrow_printable {t : Bytes} (h : ∀ b ∈ t, Printable b) : Narrow t := fun b hb => by
  have := h b hb
  unfold Printable at this
  omega

theorem debugByte_legible {b : UInt8} (h : b.toNat < 128) : Legible (debugByte b) := by
  have key : ∀ n : Fin 128, Legible (debugByte (UInt8.ofNat n)) := by decide +kernel
  have := key ⟨b.toNat, h⟩
  simpa only [UInt8.ofNat_toNat] using this

theorem debugText_legible {t : Bytes} (h : Narrow t) : Legible (debugText t) := by
  unfold debugText
  simp only [legible_append]
  exact ⟨⟨by decide, legible_flatMap fun b hb => debugByte_legible (h b hb)⟩, by decide⟩

mutual
/-- All strings are in ASCII. -/
def Dbg.Ascii : Dbg → Prop
  | .word _ => True
  | .str s => Narrow s
  | .hex _ => True
  | .tuple _ args => Dbg.AsciiItems args
  | .record _ fields => Dbg.AsciiFields fields
  | .seq items => Dbg.AsciiItems items
  | .map entries => Dbg.AsciiEntries entries
def Dbg.AsciiItems : List Dbg → Prop
  | [] => True
  | x :: l => x.Ascii ∧ Dbg.AsciiItems l
def Dbg.AsciiFields : List (Bytes × Dbg) → Prop
  | [] => True
  | (_, x) :: l => x.Ascii ∧ Dbg.AsciiFields l
def Dbg.AsciiEntries : List (Nat × Dbg) → Prop
  | [] => True
  | (_, x) :: l => x.Ascii ∧ Dbg.AsciiEntries l
end

mutual
theorem text_legible : ∀ d : Dbg, d.Fine → d.Ascii → Legible d.text
  | .word w, hf, _ => by rw [Dbg.Fine] at hf; rw [Dbg.text]; exact word_legible hf
  | .str s, _, ha => by rw [Dbg.Ascii] at ha; rw [Dbg.text]; exact debugText_legible ha
  | .hex b, _, _ => by rw [Dbg.text]; exact hexDump_legible b
  | .tuple name [], hf, _ => by
    rw [Dbg.Fine] at hf; exact absurd rfl hf.2.1
  | .tuple name (x :: l), hf, ha => by
    rw [Dbg.Fine, Dbg.FineItems] at hf
    rw [Dbg.Ascii, Dbg.AsciiItems] at ha
    rw [Dbg.text]
    simp only [legible_append]
    exact ⟨⟨⟨⟨word_legible hf.1, by decide⟩, text_legible x hf.2.2.1 ha.1⟩,
      items_legible l hf.2.2.2 ha.2⟩, by decide⟩
  | .record name [], hf, _ => by
    rw [Dbg.Fine] at hf; exact absurd rfl hf.2.1
  | .record name ((k, x) :: l), hf, ha => by
    rw [Dbg.Fine, Dbg.FineFields] at hf
    rw [Dbg.Ascii, Dbg.AsciiFields] at ha
    rw [Dbg.text]
    simp only [legible_append]
    exact ⟨⟨⟨⟨⟨⟨word_legible hf.1, by decide⟩, word_legible hf.2.2.1⟩, by decide⟩,
      text_legible x hf.2.2.2.1 ha.1⟩, fields_legible l hf.2.2.2.2 ha.2⟩, by decide⟩
  | .seq [], _, _ => by rw [Dbg.text]; decide
  | .seq (x :: l), hf, ha => by
    rw [Dbg.Fine, Dbg.FineItems] at hf
    rw [Dbg.Ascii, Dbg.AsciiItems] at ha
    rw [Dbg.text]
    simp only [legible_append]
    exact ⟨⟨⟨by decide, text_legible x hf.1 ha.1⟩, items_legible l hf.2 ha.2⟩, by decide⟩
  | .map [], _, _ => by rw [Dbg.text]; decide
  | .map ((k, x) :: l), hf, ha => by
    rw [Dbg.Fine, Dbg.FineEntries] at hf
    rw [Dbg.Ascii, Dbg.AsciiEntries] at ha
    rw [Dbg.text]
    simp only [legible_append]
    exact ⟨⟨⟨⟨⟨by decide, decStr_legible k⟩, by decide⟩, text_legible x hf.1 ha.1⟩,
      entries_legible l hf.2 ha.2⟩, by decide⟩
theorem items_legible : ∀ l : List Dbg, Dbg.FineItems l → Dbg.AsciiItems l → Legible (Dbg.textItems l)
  | [], _, _ => by rw [Dbg.textItems]; exact legible_nil
  | x :: l, hf, ha => by
    rw [Dbg.FineItems] at hf
    rw [Dbg.AsciiItems] at ha
    rw [Dbg.textItems]
    simp only [legible_append]
    exact ⟨⟨by decide, text_legible x hf.1 ha.1⟩, items_legible l hf.2 ha.2⟩
theorem fields_legible : ∀ l : List (Bytes × Dbg), Dbg.FineFields l → Dbg.AsciiFields l →
    Legible (Dbg.textFields l)
  | [], _, _ => by rw [Dbg.textFields]; exact legible_nil
  | (k, x) :: l, hf, ha => by
    rw [Dbg.FineFields] at hf
    rw [Dbg.AsciiFields] at ha
    rw [Dbg.textFields]
    simp only [legible_append]
    exact ⟨⟨⟨⟨by decide, word_legible hf.1⟩, by decide⟩, text_legible x hf.2.1 ha.1⟩,
      fields_legible l hf.2.2 ha.2⟩
theorem entries_legible : ∀ l : List (Nat × Dbg), Dbg.FineEntries l → Dbg.AsciiEntries l →
    Legible (Dbg.textEntries l)
  | [], _, _ => by rw [Dbg.textEntries]; exact legible_nil
  | (k, x) :: l, hf, ha => by
    rw [Dbg.FineEntries] at hf
    rw [Dbg.AsciiEntries] at ha
    rw [Dbg.textEntries]
    simp only [legible_append]
    exact ⟨⟨⟨⟨by decide, decStr_legible k⟩, by decide⟩, text_legible x hf.1 ha.1⟩,
      entries_legible l hf.2 ha.2⟩
end

/-! ## Values -/

theorem wrap_ascii {name : String} {x : Dbg} (h : x.Ascii) : (Dbg.wrap name x).Ascii := by
  unfold Dbg.wrap
  rw [Dbg.Ascii, Dbg.AsciiItems, Dbg.AsciiItems]
  exact ⟨h, trivial⟩

theorem fields_ascii : ∀ {l : List (String × Dbg)}, (∀ f ∈ l, f.2.Ascii) →
    Dbg.AsciiFields (l.map fun f => (bs f.1, f.2))
  | [], _ => by rw [List.map_nil, Dbg.AsciiFields]; trivial
  | f :: l, h => by
    rw [List.map_cons, Dbg.AsciiFields]
    exact ⟨h f List.mem_cons_self, fields_ascii fun g hg => h g (List.mem_cons_of_mem _ hg)⟩

theorem struct_ascii {name : String} {fields : List (String × Dbg)} (h : ∀ f ∈ fields, f.2.Ascii) :
    (Dbg.struct name fields).Ascii := by
  unfold Dbg.struct
  rw [Dbg.Ascii]
  exact fields_ascii h

theorem items_ascii : ∀ {l : List Dbg}, (∀ x ∈ l, x.Ascii) → Dbg.AsciiItems l
  | [], _ => by rw [Dbg.AsciiItems]; trivial
  | f :: l, h => by
    rw [Dbg.AsciiItems]
    exact ⟨h f List.mem_cons_self, items_ascii fun g hg => h g (List.mem_cons_of_mem _ hg)⟩

theorem word_ascii (w : Bytes) : (Dbg.word w).Ascii := by rw [Dbg.Ascii]; trivial

theorem arr_ascii {α : Type} {n : Nat} {f : α → Dbg} (hf : ∀ a, (f a).Ascii) (v : Vector α n) :
    (Dbg.arr f v).Ascii := by
  unfold Dbg.arr
  rw [Dbg.Ascii]
  refine items_ascii fun x hx => ?_
  obtain ⟨a, _, rfl⟩ := List.mem_map.mp hx
  exact hf a

theorem variant_ascii {α : Type} [Variants α] (a : α) : (Variants.debug a).Ascii := word_ascii _

theorem zone_ascii {s : ZoneStatus} {d : Dbg} (h : s.debugTree = .ok d) : d.Ascii := by
  unfold ZoneStatus.debugTree at h
  obtain ⟨_, _, h⟩ := P_bind_ok.mp h
  cases h
  rw [Dbg.Ascii]
  refine items_ascii ?_
  simp only [List.mem_cons, List.not_mem_nil, or_false]
  rintro x (rfl | rfl) <;> exact variant_ascii _

theorem zones_ascii : ∀ {l : List ZoneStatus} {i : Nat} {es : List (Nat × Dbg)},
    debugZones i l = .ok es → Dbg.AsciiEntries es
  | [], _, _, h => by cases h; rw [Dbg.AsciiEntries]; trivial
  | s :: l, i, es, h => by
    unfold debugZones at h
    split at h
    · exact zones_ascii h
    · obtain ⟨x, hx, h⟩ := P_bind_ok.mp h
      obtain ⟨r, hr, h⟩ := P_bind_ok.mp h
      cases h
      rw [Dbg.AsciiEntries]
      exact ⟨zone_ascii hx, zones_ascii hr⟩

theorem asr_ascii (m : ArmingStatusReport) : m.debug.Ascii := by
  unfold ArmingStatusReport.debug
  refine struct_ascii ?_
  simp only [List.mem_cons, List.not_mem_nil, or_false]
  rintro f (rfl | rfl | rfl | rfl)
  · exact arr_ascii variant_ascii _
  · exact arr_ascii variant_ascii _
  · exact arr_ascii variant_ascii _
  · exact word_ascii _

theorem padDec_printable (w n : Nat) : ∀ b ∈ padDec w n, Printable b := by
  intro b hb
  unfold padDec at hb
  rcases List.mem_append.mp hb with h | h
  · rw [(List.mem_replicate.mp h).2]; decide
  · exact decStr_printable n b h

theorem narrow_append {a b : Bytes} : Narrow (a ++ b) ↔ Narrow a ∧ Narrow b := by
  unfold Narrow
  simp only [List.mem_append]
  exact ⟨fun h => ⟨fun x hx => h x (.inl hx), fun x hx => h x (.inr hx)⟩,
    fun h x hx => hx.elim (h.1 x) (h.2 x)⟩

instance (t : Bytes) : Decidable (Narrow t) := by unfold Narrow; infer_instance

end Elk
