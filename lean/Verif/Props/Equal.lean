import Verif.Model.Show
import Verif.Lemmas.Debug
import Verif.Lemmas.MsgMore
import Verif.Lemmas.Complaint
import Verif.Props.Grammar
/-!
# Equality of packets, and what is written with `{}` (C120, C121)
-/

namespace Elk.Props
open Elk.Spec

/-- The packet came out of the decoder. -/
def Came (p : Packet) : Prop := ∃ src rest, Packet.decode src = .ok (some p, rest)

theorem came_valid {p : Packet} (h : ValidPacket p) : Came p := ⟨_, _, decode_wire h []⟩

/-- **C120** `==` is an equivalence. -/
theorem C120_equivalence : (∀ p : Packet, p.eq p = true) ∧
    (∀ p q : Packet, p.eq q = true → q.eq p = true) ∧
    ∀ p q r : Packet, p.eq q = true → q.eq r = true → p.eq r = true := by
  refine ⟨?_, ?_, ?_⟩
  · rintro (p | p | p) <;> simp [Packet.eq, InvalidPacket.eq]
  · rintro (p | p | p) (q | q | q) <;> simp [Packet.eq, InvalidPacket.eq] <;> exact Eq.symm
  · rintro (p | p | p) (q | q | q) (r | r | r) <;> simp [Packet.eq, InvalidPacket.eq] <;>
      exact fun h1 h2 => h1.trans h2

theorem eq_wire {p q : Packet} (h : p.eq q = true) : wire p = wire q := by
  match p, q with
  | .ascii ⟨a⟩, .ascii ⟨b⟩ =>
    have : a = b := by simpa [Packet.eq] using h
    rw [this]
  | .rp ⟨a⟩, .rp ⟨b⟩ =>
    have : a = b := by simpa [Packet.eq] using h
    rw [this]
  | .invalid a, .invalid b =>
    have : a.raw = b.raw := by simpa [Packet.eq, InvalidPacket.eq] using h
    exact this
  | .ascii _, .rp _ => cases h
  | .ascii _, .invalid _ => cases h
  | .rp _, .ascii _ => cases h
  | .rp _, .invalid _ => cases h
  | .invalid _, .ascii _ => cases h
  | .invalid _, .rp _ => cases h

theorem wire_eq {p q : Packet} (hp : Came p) (hq : Came q) (h : wire p = wire q) : p.eq q = true := by
  obtain ⟨s, r, hp⟩ := hp
  obtain ⟨s', r', hq⟩ := hq
  have e1 := decode_some_split hp
  have e2 := decode_some_split hq
  rcases decode_some_cond hp with hv | ⟨i, rfl, _⟩
  · rw [← h] at e2
    rw [e2, decode_wire hv] at hq
    cases hq
    exact C120_equivalence.1 p
  · rcases decode_some_cond hq with hv | ⟨j, rfl, _⟩
    · rw [h] at e1
      rw [e1, decode_wire hv] at hp
      cases hp
      exact C120_equivalence.1 _
    · have h : i.raw = j.raw := h
      simp [Packet.eq, InvalidPacket.eq, h]

/-- **C120** Two packets that were decoded, or are valid, are equal exactly when they encode to the
same bytes. -/
theorem C120_wire {p q : Packet} (hp : Came p ∨ ValidPacket p) (hq : Came q ∨ ValidPacket q) :
    p.eq q = true ↔ p.encode = q.encode := by
  have hp : Came p := hp.elim id came_valid
  have hq : Came q := hq.elim id came_valid
  have e1 : p.encode = .ok (wire p) := by obtain ⟨_, _, h⟩ := hp; exact encode_decoded h
  have e2 : q.encode = .ok (wire q) := by obtain ⟨_, _, h⟩ := hq; exact encode_decoded h
  rw [e1, e2]
  exact ⟨fun h => by rw [eq_wire h], fun h => wire_eq hp hq (by injection h)⟩

/-- **C120** Not so for every value of the type: an invalid packet can hold the bytes of a valid one. -/
theorem C120_made : ∃ p q : Packet, p.encode = q.encode ∧ p.eq q = false :=
  ⟨.ascii ⟨bs "xk00"⟩, .invalid ⟨[], bs "06xk0057\r\n"⟩, rfl, rfl⟩

/-- Bytes that begin like a packet, followed by others. -/
theorem starts_append {x y : Bytes} (h : Starts x) : Starts (x ++ y) := by
  obtain ⟨a, b, r, rfl, h⟩ := h
  exact ⟨a, b, r ++ y, rfl, h⟩

theorem starts_take {x y y' : Bytes} (hl : 2 ≤ x.length) (h : Starts (x ++ y)) : Starts (x ++ y') := by
  match x, hl with
  | a :: b :: r, _ =>
    obtain ⟨a', b', r', he, h⟩ := h
    cases he
    exact ⟨a, b, r ++ y', rfl, h⟩

theorem starts_hex {n : Nat} (h : n < 256) (r : Bytes) : Starts (hex2 n ++ r) := by
  obtain ⟨a, b, hab⟩ : ∃ a b, hex2 n = [a, b] := ⟨_, _, rfl⟩
  refine ⟨a, b, r, by rw [hab]; rfl, .inr (dehexByte_hex.mp ?_)⟩
  rw [dehexByte_hex2 h hab]; rfl

/-- What is decoded from bytes that begin like a packet has two bytes at least. -/
theorem starts_two {src rest : Bytes} {p : Packet} (h : Packet.decode src = .ok (some p, rest))
    (hs : Starts src) : 2 ≤ (wire p).length := by
  have hf := C117_decode.mp h
  generalize hx : some p = x at hf
  cases hf with
  | packet p' _ hv he =>
    cases hx
    match p with
    | .ascii p => simp [wire, asciiFrame_length]
    | .rp p => simp [wire, rpFrame_length]
  | invalid raw _ text he hd =>
    cases hx
    show 2 ≤ raw.length
    cases hd with
    | ascii n r _ _ hr hl _ => omega
    | crc d hi lo hr => rw [hr]; simp
    | dle d c r hr => rw [hr]; simp
    | noEnd d tail hr _ hl => omega
    | noStart h1 _ hno _ =>
      exact absurd (he ▸ hs) (hno [] (raw ++ rest) rfl h1)
  | waits => cases hx

/-- A packet cannot be decoded as the beginning of a longer one. -/
theorem no_longer {C s s' r r' : Bytes} {p q : Packet} (hp : Packet.decode (C ++ s) = .ok (some p, r))
    (hq : Packet.decode (C ++ s') = .ok (some q, r')) (hl : (wire p).length < (wire q).length)
    (hc : (wire q).length ≤ C.length)
    (hs : Starts r → (wire p).length + 2 ≤ C.length) : False := by
  have e1 := decode_some_split hp
  have e2 := decode_some_split hq
  obtain ⟨z, hz⟩ : ∃ z, C = wire p ++ z := by
    refine ⟨C.drop (wire p).length, ?_⟩
    have := congrArg (List.take (wire p).length) e1
    rw [List.take_left, List.take_append_of_le_length (by omega)] at this
    rw [← this, List.length_take, Nat.min_eq_left (by omega), List.take_append_drop]
  have hzl : 1 ≤ z.length := by
    have := congrArg List.length hz
    rw [List.length_append] at this
    omega
  have hr : r = z ++ s := by
    rw [hz, List.append_assoc] at e1
    exact (List.append_cancel_left e1).symm
  have same : Packet.decode (wire p ++ (z ++ s')) = .ok (some p, z ++ s') → False := by
    intro h
    rw [← List.append_assoc, ← hz, hq] at h
    cases h
    omega
  have hf := C117_decode.mp hp
  generalize hx : some p = x at hf
  cases hf with
  | packet p' _ hv he => cases hx; exact same (decode_wire hv _)
  | waits => cases hx
  | invalid raw _ text he hd =>
    cases hx
    have same' : Diagnosis raw (z ++ s') text → False := fun h => same (C102_told h)
    cases hd with
    | ascii n t _ hn ht hl hd => exact same' (.ascii n t _ hn ht hl hd)
    | crc d hi lo ht hl' hd => exact same' (.crc d hi lo ht hl' hd)
    | dle d c t ht hl' hrest h1 h2 =>
      match z, hzl with
      | c' :: z, _ =>
        rw [hr] at hrest
        injection hrest with h _
        subst h
        exact same' (.dle d _ (z ++ s') ht hl' rfl h1 h2)
    | noEnd d tail ht h1 h2 => exact same' (.noEnd d tail ht h1 h2)
    | noStart h1 h2 hno hlast =>
      have hraw : wire (.invalid ⟨bs "bytes without ASCII length or RP prefix", raw⟩) = raw := rfl
      rw [hraw] at hl hz hs e1
      -- what follows is no longer packet either
      have hst : ¬ Starts (C ++ s') := by
        intro h
        refine hno [] (raw ++ r) rfl h1 ?_
        rw [← e1]
        exact starts_take (by omega) h
      have hf := C117_decode.mp hq
      generalize hx : some q = x at hf
      cases hf with
      | packet q' _ hv he =>
        cases hx
        refine hst ?_
        rw [he]
        match q, hv with
        | .ascii ⟨b⟩, hv =>
          exact starts_append (show Starts (asciiFrame b) by
            unfold asciiFrame
            have : b.length ≤ 253 := hv.2.1
            simp only [List.append_assoc]
            exact starts_hex (by omega) _)
        | .rp ⟨b⟩, _ => exact ⟨0x10, 0x02, _, rfl, .inl ⟨rfl, rfl⟩⟩
      | waits => cases hx
      | invalid raw' _ text' he' hd' =>
        cases hx
        have hlq : raw.length < raw'.length := hl
        have hcq : raw'.length ≤ C.length := hc
        cases hd' with
        | ascii n t _ hn ht _ _ => exact hst (by rw [he', ht]; exact starts_append (starts_hex hn t))
        | crc d hi lo ht => exact hst (by rw [he', ht]; exact ⟨0x10, 0x02, _, rfl, .inl ⟨rfl, rfl⟩⟩)
        | dle d c t ht => exact hst (by rw [he', ht]; exact ⟨0x10, 0x02, _, rfl, .inl ⟨rfl, rfl⟩⟩)
        | noEnd d tail ht => exact hst (by rw [he', ht]; exact ⟨0x10, 0x02, _, rfl, .inl ⟨rfl, rfl⟩⟩)
        | noStart h1' h2' hno' _ =>
          rcases hlast with ⟨h, _⟩ | ⟨h, _⟩
          · omega
          · refine hno' raw (z ++ s') ?_ hlq ?_
            · rw [← he', hz, List.append_assoc]
            · have h3 := hs h
              rw [hr] at h
              refine starts_take ?_ h
              have := congrArg List.length hz
              rw [List.length_append] at this
              omega

/-- **C120** Two sequences of decoded packets that encode to the same bytes are equal, packet by
packet, whatever followed them. -/
theorem C120_sequence {src src' r r' : Bytes} {ps qs : List Packet} (hp : Steps src ps r)
    (hq : Steps src' qs r') (h : ps.flatMap wire = qs.flatMap wire) : packetsEq ps qs = true := by
  have split : ∀ {src ps r}, Steps src ps r → src = ps.flatMap wire ++ r := by
    intro src ps r h
    induction h with
    | nil => rfl
    | cons h _ ih => rw [decode_some_split h, ih, List.flatMap_cons, List.append_assoc]
  induction hp generalizing src' qs with
  | nil =>
    cases hq with
    | nil => rfl
    | cons hd _ =>
      have := wire_length_pos hd
      have := congrArg List.length h
      rw [List.flatMap_cons, List.length_append] at this
      simp at this
      omega
  | @cons src mid p ps r hd ht ih =>
    cases hq with
    | nil =>
      have h1 := wire_length_pos hd
      have h2 := congrArg List.length h
      rw [List.flatMap_cons, List.length_append, List.flatMap_nil, List.length_nil] at h2
      omega
    | @cons _ mid' q qs _ hd' ht' =>
      have e1 := split (.cons hd ht)
      have e2 := split (.cons hd' ht')
      have long : ∀ {src mid p ps r}, Packet.decode src = .ok (some p, mid) → Steps mid ps r →
          (wire p).length < ((p :: ps).flatMap wire).length → Starts mid →
          (wire p).length + 2 ≤ ((p :: ps).flatMap wire).length := by
        intro src mid p ps r hd ht hl hs
        rw [List.flatMap_cons, List.length_append] at hl ⊢
        cases ht with
        | nil => simp at hl
        | cons h _ =>
          have := starts_two h hs
          rw [List.flatMap_cons, List.length_append]
          omega
      have hle1 : (wire p).length ≤ ((p :: ps).flatMap wire).length := by
        rw [List.flatMap_cons, List.length_append]; omega
      have hle2 : (wire q).length ≤ ((q :: qs).flatMap wire).length := by
        rw [List.flatMap_cons, List.length_append]; omega
      have hw : wire p = wire q := by
        rcases Nat.lt_trichotomy (wire p).length (wire q).length with hl | hl | hl
        · rw [← h] at e2 hle2
          exact (no_longer (e1 ▸ hd) (e2 ▸ hd') hl hle2 fun hs => long hd ht (by omega) hs).elim
        · have := congrArg (List.take (wire p).length) h
          rw [List.flatMap_cons, List.flatMap_cons, List.take_left, hl, List.take_left] at this
          exact this
        · rw [h] at e1 hle1
          exact (no_longer (e2 ▸ hd') (e1 ▸ hd) hl hle1 fun hs => long hd' ht' (by omega) hs).elim
      have he := wire_eq ⟨_, _, hd⟩ ⟨_, _, hd'⟩ hw
      rw [packetsEq, he, Bool.true_and]
      refine ih ht' ?_
      rw [List.flatMap_cons, List.flatMap_cons, hw] at h
      exact List.append_cancel_left h

/-- Every fault but two shows in the bytes themselves. -/
theorem diagnosis_rest {raw r text : Bytes} (h : Diagnosis raw r text) :
    (∀ r', Diagnosis raw r' text) ∨
    (∃ c, text = bs "RP packet has bad sequence DTS " ++ hex2 c ∧ Starts raw) ∨
    (text = bs "bytes without ASCII length or RP prefix" ∧ ¬ Starts raw) := by
  cases h with
  | ascii n t _ hn ht hl hd => exact .inl fun _ => .ascii n t _ hn ht hl hd
  | crc d hi lo ht hl hd => exact .inl fun _ => .crc d hi lo ht hl hd
  | dle d c t ht => exact .inr (.inl ⟨_, rfl, by rw [ht]; exact ⟨0x10, 0x02, _, rfl, .inl ⟨rfl, rfl⟩⟩⟩)
  | noEnd d tail ht h1 h2 => exact .inl fun _ => .noEnd d tail ht h1 h2
  | noStart h1 _ hno _ => exact .inr (.inr ⟨rfl, fun h => hno [] _ rfl h1 (starts_append h)⟩)

/-- **C120** What `==` leaves out: of decoded packets it ignores at most which byte follows a DLE. -/
theorem C120_reason {p q : Packet} (hp : Came p) (hq : Came q) (h : p.eq q = true) :
    p = q ∨ ∃ raw c c', p = .invalid ⟨bs "RP packet has bad sequence DTS " ++ hex2 c, raw⟩ ∧
      q = .invalid ⟨bs "RP packet has bad sequence DTS " ++ hex2 c', raw⟩ := by
  match p, q with
  | .ascii ⟨a⟩, .ascii ⟨b⟩ => exact .inl (by rw [show a = b by simpa [Packet.eq] using h])
  | .rp ⟨a⟩, .rp ⟨b⟩ => exact .inl (by rw [show a = b by simpa [Packet.eq] using h])
  | .invalid ⟨t, raw⟩, .invalid ⟨t', raw'⟩ =>
    have e : raw = raw' := by simpa [Packet.eq, InvalidPacket.eq] using h
    subst e
    obtain ⟨s, r, hp⟩ := hp
    obtain ⟨s', r', hq⟩ := hq
    have h1 : Diagnosis raw r t := (C102_true hp).2
    have h2 : Diagnosis raw r' t' := (C102_true hq).2
    rcases diagnosis_rest h1 with k1 | k1
    · exact .inl (by rw [C102_one (k1 r') h2])
    rcases diagnosis_rest h2 with k2 | k2
    · exact .inl (by rw [C102_one h1 (k2 r)])
    rcases k1 with ⟨c, rfl, hs⟩ | ⟨rfl, hs⟩ <;> rcases k2 with ⟨c', rfl, hs'⟩ | ⟨rfl, hs'⟩
    · exact .inr ⟨raw, c, c', rfl, rfl⟩
    · exact absurd hs hs'
    · exact absurd hs' hs
    · exact .inl rfl
  | .ascii _, .rp _ => cases h
  | .ascii _, .invalid _ => cases h
  | .rp _, .ascii _ => cases h
  | .rp _, .invalid _ => cases h
  | .invalid _, .ascii _ => cases h
  | .invalid _, .rp _ => cases h

/-- **C120** And that it does: equal packets with different reasons are decoded. -/
theorem C120_ignored : ∃ p q, Came p ∧ Came q ∧ p.eq q = true ∧ p ≠ q :=
  ⟨_, _, ⟨[0x10, 0x02, 0x10, 0x41], _, rfl⟩, ⟨[0x10, 0x02, 0x10, 0x42], _, rfl⟩, rfl, by decide⟩

/-- **C120** The name of a zone equals the text without the spaces at its end. -/
theorem C120_name {t : TextDescription} (h : WfText t) (s : Bytes) :
    ∃ r, t.eqStr s = .ok r ∧ (r = true ↔ TrimmedOf s t.text.toList) := by
  refine ⟨_, by unfold TextDescription.eqStr; rw [asStr_wf h]; rfl, ?_⟩
  rw [beq_iff_eq]
  exact ⟨fun h => h ▸ trimEnd_spec _, fun h => trimmed_unique (trimEnd_spec _) h⟩

/-- Non-vacuity: two sequences of the same bytes, of which one was followed by something else. -/
example : ∃ p q : Packet, Steps (bs "?06xk0057\r\n06") [p, q] (bs "06") ∧
    Steps (bs "?06xk0057\r\n") [p, q] [] :=
  ⟨_, _, .cons rfl (.cons rfl .nil), .cons rfl (.cons rfl .nil)⟩

/-! ## C121 -/

theorem hex2_plain (n : Nat) (h : n < 256) : ∀ b ∈ hex2 n, b ≠ 10 := by
  revert h n; decide +kernel

/-- The reasons are one line. -/
theorem reason_line {raw r text : Bytes} (h : Diagnosis raw r text) : ∀ b ∈ text, b ≠ 10 := by
  have lit : ∀ t : Bytes, (t.all fun b => b != 10) = true → ∀ b ∈ t, b ≠ 10 := by
    intro t ht b hb
    simpa using List.all_eq_true.mp ht b hb
  have app : ∀ {x y : Bytes}, (∀ b ∈ x, b ≠ 10) → (∀ b ∈ y, b ≠ 10) → ∀ b ∈ x ++ y, b ≠ 10 := by
    intro x y hx hy b hb
    exact (List.mem_append.mp hb).elim (hx b) (hy b)
  have digit : ∀ n < 16, hexDigit n ≠ 10 := by decide +kernel
  cases h with
  | ascii n t _ hn ht hl hd =>
    cases hd with
    | short => exact lit _ (by decide +kernel)
    | noCrlf => exact lit _ (by decide +kernel)
    | digits => exact lit _ (by decide +kernel)
    | sum d c =>
      exact app (lit _ (by decide +kernel)) (hex2_plain _ (by unfold checkOf; omega))
    | letter n body i =>
      refine app (lit _ (by decide +kernel)) fun b hb => ?_
      rw [← decStr_num] at hb
      rintro rfl
      exact absurd (decStr_wordy i _ hb) (by decide)
  | crc d hi lo =>
    refine app (lit _ (by decide +kernel)) ?_
    have hl := crc16_lt d
    unfold hexText
    refine app (app ?_ ?_) (hex2_plain _ (by omega))
    · intro b hb
      split at hb
      · rw [List.mem_singleton.mp hb]; exact digit _ (by omega)
      · cases hb
    · intro b hb
      split at hb
      · rw [List.mem_singleton.mp hb]; exact digit _ (by omega)
      · cases hb
  | dle d c => exact app (lit _ (by decide +kernel)) (hex2_plain _ c.toNat_lt)
  | noEnd => exact lit _ (by decide +kernel)
  | noStart => exact lit _ (by decide +kernel)

theorem line_cancel {a b x y : Bytes} (ha : ∀ c ∈ a, c ≠ 10) (hb : ∀ c ∈ b, c ≠ 10)
    (h : a ++ 10 :: x = b ++ 10 :: y) : a = b ∧ x = y := by
  induction a generalizing b with
  | nil =>
    cases b with
    | nil => injection h with _ h; exact ⟨rfl, h⟩
    | cons c b =>
      injection h with h _
      exact absurd h.symm (hb c List.mem_cons_self)
  | cons c a ih =>
    cases b with
    | nil =>
      injection h with h _
      exact absurd h (ha c List.mem_cons_self)
    | cons d b =>
      injection h with h1 h2
      obtain ⟨h3, h4⟩ := ih (fun c hc => ha c (List.mem_cons_of_mem _ hc))
        (fun c hc => hb c (List.mem_cons_of_mem _ hc)) h2
      exact ⟨by rw [h1, h3], h4⟩

/-- **C121** What is written of a packet that is no packet shows its bytes and the reason. -/
theorem C121_invalid {p q : InvalidPacket} (hp : Came (.invalid p)) (hq : Came (.invalid q))
    (h : p.display = q.display) : p = q := by
  obtain ⟨s, r, hp⟩ := hp
  obtain ⟨s', r', hq⟩ := hq
  have h1 := reason_line (C102_true hp).2
  have h2 := reason_line (C102_true hq).2
  unfold InvalidPacket.display at h
  simp only [List.append_assoc] at h
  have h := List.append_cancel_left h
  obtain ⟨h3, h4⟩ := line_cancel h1 h2 h
  have h5 := List.append_cancel_left (as := bs "raw data:\n") h4
  have h6 := (hexDump_cancel (a := p.raw) (b := q.raw) (x := []) (y := []) (by rw [h5])).1
  obtain ⟨_, _⟩ := p
  obtain ⟨_, _⟩ := q
  dsimp only at h3 h6
  rw [h3, h6]

/-- **C121** What is written of an RP packet shows its bytes. -/
theorem C121_rp {p q : RpPacket} (h : p.display = q.display) : p = q := by
  obtain ⟨a⟩ := p
  obtain ⟨b⟩ := q
  have h : hexDump a = hexDump b := h
  rw [(hexDump_cancel (a := a) (b := b) (x := []) (y := []) (by rw [h])).1]

/-- Non-vacuity. -/
example : InvalidPacket.display ⟨bs "ASCII packet too short", bs "0000\r\n"⟩ =
    bs ("invalid packet: ASCII packet too short\nraw data:\nLength: 6 (0x6) bytes\n" ++
      "0000:   30 30 30 30  0d 0a                                   0000..") := by decide +kernel

end Elk.Props
