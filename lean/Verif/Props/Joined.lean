import Verif.Props.Debug
import Verif.Props.EndToEnd
/-!
# Joining and cutting captures

What `elkm1-cli read` shows of a file, and what it shows of the parts of the file.
-/

namespace Elk.Props
open Spec

/-! ## C160: what `read` shows of the parts of a capture -/

/-- `read` has nothing to say about an incomplete rest. -/
def NoRest (lines : List Printed) : Prop := ∀ left, Printed.incomplete left ∉ lines

theorem read_drains {a : Bytes} {ps left} (h : Drains a ps left) :
    Cli.read (.ok a) = .ok (ps.map Printed.packet ++ if left = [] then [] else [.incomplete left]) := by
  obtain ⟨qs, l, _, d, r, _⟩ := C54_read a
  obtain ⟨rfl, rfl⟩ := drains_unique h d
  exact r

theorem noRest_iff {ps : List Packet} {left : Bytes} :
    NoRest (ps.map Printed.packet ++ if left = [] then [] else [.incomplete left]) ↔ left = [] := by
  constructor
  · intro h
    refine Classical.byContradiction fun hne => h left ?_
    rw [if_neg hne]
    exact List.mem_append_right _ (List.mem_singleton.mpr rfl)
  · rintro rfl l h
    rw [if_pos rfl, List.append_nil] at h
    obtain ⟨_, _, e⟩ := List.mem_map.mp h
    cases e

/-- **C160** A capture that grows: what `read` has shown as packets stays as it is, and what follows is
what `read` shows of the incomplete rest together with the bytes that were added. -/
theorem C160_grows (a b : Bytes) : ∃ (ps : List Packet) (left : Bytes) (more : List Printed),
    Cli.read (.ok a) = .ok (ps.map Printed.packet ++ if left = [] then [] else [.incomplete left]) ∧
    Cli.read (.ok (left ++ b)) = .ok more ∧
    Cli.read (.ok (a ++ b)) = .ok (ps.map Printed.packet ++ more) := by
  obtain ⟨ps, left, _, d, r, _⟩ := C54_read a
  obtain ⟨qs, l, _, d', r', _⟩ := C54_read (left ++ b)
  refine ⟨ps, left, _, r, r', ?_⟩
  rw [read_drains (drains_append d d'), List.map_append, List.append_assoc]

/-- Non-vacuity: the rest `06as` gets completed. -/
example : Cli.read (.ok (bs "06zs004D\r\n06as")) =
      .ok [.packet (.ascii ⟨bs "zs00"⟩), .incomplete (bs "06as")] ∧
    Cli.read (.ok (bs "06zs004D\r\n06as" ++ bs "0066\r\n")) =
      .ok [.packet (.ascii ⟨bs "zs00"⟩), .packet (.ascii ⟨bs "as00"⟩)] := ⟨by rfl, by rfl⟩

/-- A line on an incomplete rest is the last. -/
theorem rest_last {m left : Bytes} {tail : List Printed} (ht : tail ≠ []) :
    ∀ {rs ps : List Packet}, rs.map Printed.packet ++ (if m = [] then [] else [Printed.incomplete m]) =
      ps.map Printed.packet ++ Printed.incomplete left :: tail → False
  | [], [], h => by
    split at h
    · cases h
    · injection h with _ h
      exact ht h.symm
  | [], _ :: _, h => by
    split at h
    · cases h
    · injection h with h; cases h
  | _ :: _, [], h => by injection h with h; cases h
  | _ :: rs, _ :: ps, h => by
    rw [List.map_cons, List.map_cons] at h
    injection h with _ h
    exact rest_last ht h

/-- **C160** Of two captures joined, `read` shows what it shows of the first and then what it shows of
the second exactly if it found the first to be complete (or the second is empty). -/
theorem C160_joined {a b : Bytes} {la lb : List Printed} (ha : Cli.read (.ok a) = .ok la)
    (hb : Cli.read (.ok b) = .ok lb) :
    Cli.read (.ok (a ++ b)) = .ok (la ++ lb) ↔ NoRest la ∨ b = [] := by
  obtain ⟨ps, left, _, d, r, _⟩ := C54_read a
  obtain ⟨qs, l, ws, d', r', _, e1, e2⟩ := C54_read b
  rw [r] at ha
  rw [r'] at hb
  cases ha
  cases hb
  rw [noRest_iff]
  constructor
  · intro h
    refine Classical.or_iff_not_imp_left.mpr fun hne => Classical.byContradiction fun hb => ?_
    obtain ⟨rs, m, _, _, r'', _⟩ := C54_read (a ++ b)
    rw [r'', Except.ok.injEq, if_neg hne, List.append_assoc, List.singleton_append] at h
    -- a line on a rest, which is not the last
    have hlast : (qs.map Printed.packet ++ if l = [] then [] else [Printed.incomplete l]) ≠ [] := by
      intro hnil
      obtain ⟨h1, h2⟩ := List.append_eq_nil_iff.mp hnil
      have hq : qs = [] := List.map_eq_nil_iff.mp h1
      subst hq
      cases e1
      have e3 : l = b := e2
      rw [e3, if_neg hb] at h2
      cases h2
    generalize (qs.map Printed.packet ++ if l = [] then [] else [Printed.incomplete l]) = tail
      at h hlast
    exact rest_last hlast h
  · rintro (rfl | rfl)
    · rw [read_drains (drains_append d d'), if_pos rfl, List.append_nil, List.map_append,
        List.append_assoc]
    · obtain ⟨rfl, rfl⟩ := drains_unique drains_nil d'
      rw [List.append_nil, r, List.map_nil, if_pos rfl, List.append_nil, List.append_nil]

theorem output_ok {a t : Bytes} : Cli.output (.ok a) = .ok t ↔
    ∃ l, Cli.read (.ok a) = .ok l ∧ t = l.flatMap Printed.text := by
  obtain ⟨ps, left, _, _, r, _⟩ := C54_read a
  unfold Cli.output
  rw [r]
  constructor
  · intro h; cases h; exact ⟨_, rfl, rfl⟩
  · rintro ⟨l, h, rfl⟩; cases h; rfl

/-- **C160** The same for the texts that are written to the standard output. -/
theorem C160_output {a b ta tb : Bytes} {la : List Printed} (hl : Cli.read (.ok a) = .ok la)
    (ha : Cli.output (.ok a) = .ok ta) (hb : Cli.output (.ok b) = .ok tb) :
    Cli.output (.ok (a ++ b)) = .ok (ta ++ tb) ↔ NoRest la ∨ b = [] := by
  obtain ⟨la', h1, rfl⟩ := output_ok.mp ha
  rw [hl] at h1
  cases h1
  obtain ⟨lb, h2, rfl⟩ := output_ok.mp hb
  rw [← C160_joined hl h2, output_ok, ← List.flatMap_append]
  constructor
  · rintro ⟨l, h, e⟩
    rw [lines_inj e]
    exact h
  · exact fun h => ⟨_, h, rfl⟩

/-- **C160** Any number of captures of which each is complete: `read` shows of all of them joined what
it shows of each in turn. -/
theorem C160_all (fs : List Bytes)
    (h : ∀ f ∈ fs, ∃ l, Cli.read (.ok f) = .ok l ∧ NoRest l) :
    ∃ ls, fs.mapM (fun f => Cli.read (.ok f)) = .ok ls ∧
      Cli.read (.ok fs.flatten) = .ok ls.flatten := by
  induction fs with
  | nil => exact ⟨[], rfl, rfl⟩
  | cons f fs ih =>
    obtain ⟨l, h1, h2⟩ := h f (List.mem_cons_self ..)
    obtain ⟨ls, h3, h4⟩ := ih fun g hg => h g (List.mem_cons_of_mem _ hg)
    refine ⟨l :: ls, by rw [List.mapM_cons, h1, bind_ok, h3]; rfl, ?_⟩
    rw [List.flatten_cons, List.flatten_cons]
    exact (C160_joined h1 h4).mpr (.inl h2)

theorem drains_wires (ps : List Packet) (hv : ∀ p ∈ ps, ValidPacket p) :
    Drains (ps.map wire).flatten ps [] := by
  induction ps with
  | nil => exact drains_nil
  | cons p ps ih =>
    rw [List.map_cons, List.flatten_cons]
    exact .step (decode_wire (hv p (List.mem_cons_self ..)) _)
      (ih fun q hq => hv q (List.mem_cons_of_mem _ hq))

theorem mapM_wires (ps : List Packet) (hv : ∀ p ∈ ps, ValidPacket p) :
    ps.mapM Packet.encode = .ok (ps.map wire) := by
  induction ps with
  | nil => rfl
  | cons p ps ih =>
    rw [List.mapM_cons, encode_valid (hv p (List.mem_cons_self ..)), bind_ok,
      ih fun q hq => hv q (List.mem_cons_of_mem _ hq)]
    rfl

/-- **C160** A capture of valid packets is cut in two: `read` shows of the parts what it shows of the
whole exactly if the cut is between two packets. -/
theorem C160_cut {ps : List Packet} (hv : ∀ p ∈ ps, ValidPacket p) {a b : Bytes}
    (hb : b ≠ []) (hs : (ps.map wire).flatten = a ++ b) {la lb : List Printed}
    (h1 : Cli.read (.ok a) = .ok la) (h2 : Cli.read (.ok b) = .ok lb) :
    la ++ lb = ps.map Printed.packet ↔ ∃ n, a = ((ps.take n).map wire).flatten := by
  have hd := drains_wires ps hv
  have hr := read_drains hd
  rw [if_pos rfl, List.append_nil, hs] at hr
  have hj := C160_joined h1 h2
  rw [hr, Except.ok.injEq, or_iff_left hb] at hj
  rw [eq_comm, hj]
  obtain ⟨qs, left, _, d, r, _⟩ := C54_read a
  rw [h1] at r
  cases r
  rw [noRest_iff]
  constructor
  · rintro rfl
    obtain ⟨rs, m, _, d', _, _⟩ := C54_read b
    rw [hs] at hd
    obtain ⟨rfl, rfl⟩ := drains_unique (drains_append d d') hd
    refine ⟨qs.length, ?_⟩
    rw [List.take_left]
    obtain ⟨ws, e1, e2⟩ := C01_lossless_all d
    rw [mapM_wires qs fun q hq => hv q (List.mem_append_left _ hq)] at e1
    cases e1
    rw [← e2, List.append_nil]
  · rintro ⟨n, rfl⟩
    exact (drains_unique d (drains_wires _ fun q hq => hv q (List.mem_of_mem_take hq))).2.symm

/-- Non-vacuity: a cut between two packets, and one that is not. -/
example : (∀ p ∈ [Packet.ascii ⟨bs "zs00"⟩, .ascii ⟨bs "as00"⟩], ValidPacket p) ∧
    ([Packet.ascii ⟨bs "zs00"⟩, .ascii ⟨bs "as00"⟩].map wire).flatten =
      bs "06zs004D\r\n" ++ bs "06as0066\r\n" ∧
    Cli.read (.ok (bs "06zs004D\r\n")) = .ok [.packet (.ascii ⟨bs "zs00"⟩)] ∧
    Cli.read (.ok (bs "06as0066\r\n")) = .ok [.packet (.ascii ⟨bs "as00"⟩)] ∧
    ([Packet.ascii ⟨bs "zs00"⟩, .ascii ⟨bs "as00"⟩].map wire).flatten =
      bs "06zs004D\r\n06a" ++ bs "s0066\r\n" := by
  refine ⟨?_, by decide +kernel, by rfl, by rfl, by decide +kernel⟩
  intro p hp
  simp only [List.mem_cons, List.not_mem_nil, or_false] at hp
  rcases hp with rfl | rfl <;> exact ⟨by decide, by decide, by unfold Printable; decide⟩

/-- **C160** A cut inside a packet may hide more than the packet that is cut: here the digits `C0`, of
which the second part happens to begin, are taken for a length of 192, and `read` shows none of the
packets that follow. -/
theorem C160_hides :
    Cli.read (.ok (bs "0AZ" ++ bs "C018200C7\r\n06as0066\r\n06zs004D\r\n")) =
      .ok [.packet (.ascii ⟨bs "ZC018200"⟩), .packet (.ascii ⟨bs "as00"⟩),
        .packet (.ascii ⟨bs "zs00"⟩)] ∧
    Cli.read (.ok (bs "0AZ")) = .ok [.incomplete (bs "0AZ")] ∧
    Cli.read (.ok (bs "C018200C7\r\n06as0066\r\n06zs004D\r\n")) =
      .ok [.incomplete (bs "C018200C7\r\n06as0066\r\n06zs004D\r\n")] := ⟨by rfl, by rfl, by rfl⟩

end Elk.Props
