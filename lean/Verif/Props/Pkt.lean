import Verif.Lemmas.Decode
/-!
# Properties of the packet layer (C01–C10, C13–C16, C55)

Statements use only the model's public functions (`Packet.decode`, `Packet.encode`, `tryFrom`), the
packet types and `Verif/Spec/Wire.lean`.
-/

namespace Elk.Props
open Elk.Spec

/-! ## Auxiliary facts -/

theorem decode_none_eq {src left : Bytes} (h : Packet.decode src = .ok (none, left)) :
    left = src := by
  have hc := decode_case_of h
  cases hc with
  | short _ => rfl
  | rp r _ _ hc => cases hc <;> rfl
  | asciiMore _ _ _ _ _ _ _ => rfl
  | scanMore _ _ _ _ _ _ _ _ => rfl

theorem decode_some_split {src rest : Bytes} {p : Packet}
    (h : Packet.decode src = .ok (some p, rest)) : src = wire p ++ rest := by
  have hc := decode_case_of h
  cases hc with
  | rp r _ _ hc =>
    cases hc with
    | noEtx d tail hl _ _ => exact (List.take_append_drop _ _).symm
    | badEscape d c r _ _ hs _ => exact hs
    | badCrc d hi lo r _ hs _ => exact hs
    | good d r hs _ => exact hs
  | asciiBad a b n r e _ _ _ _ => exact (List.take_append_drop _ _).symm
  | asciiGood body r _ hs => exact hs
  | scanBad a b r p _ _ _ _ _ _ _ _ => exact (List.take_append_drop _ _).symm

theorem decode_some_cond {src rest : Bytes} {p : Packet}
    (h : Packet.decode src = .ok (some p, rest)) :
    ValidPacket p ∨ ∃ i, p = .invalid i ∧ 1 ≤ i.raw.length ∧ i.raw.length ≤ 1024 := by
  have hc := decode_case_of h
  cases hc with
  | rp r _ hs hc =>
    cases hc with
    | noEtx d tail hl _ _ => exact Or.inr ⟨_, rfl, by simp; omega, by simp; omega⟩
    | badEscape d c r _ _ hs hl =>
      refine Or.inr ⟨_, rfl, by simp, ?_⟩
      simp at hl ⊢; omega
    | badCrc d hi lo r _ hs hl => exact Or.inr ⟨_, rfl, by simp, hl⟩
    | good d r hs hl => exact Or.inl hl
  | asciiBad a b n r e hs hx hl hd =>
    have := n.toNat_lt
    exact Or.inr ⟨_, rfl, by simp; omega, by simp; omega⟩
  | asciiGood body r hv hs => exact Or.inl hv
  | scanBad a b r p hs _ _ h1 h2 h3 _ _ => exact Or.inr ⟨_, rfl, by simp; omega, by simp; omega⟩

theorem encode_decoded {src rest : Bytes} {p : Packet}
    (h : Packet.decode src = .ok (some p, rest)) : p.encode = .ok (wire p) := by
  rcases decode_some_cond h with hv | ⟨i, rfl, _⟩
  · exact encode_valid hv
  · rfl

theorem wire_length_pos {src rest : Bytes} {p : Packet}
    (h : Packet.decode src = .ok (some p, rest)) : 1 ≤ (wire p).length := by
  rcases decode_some_cond h with hv | ⟨i, rfl, h1, _⟩
  · match p with
    | .ascii p => simp [wire, asciiFrame_length]
    | .rp p => simp [wire, rpFrame_length]
  · exact h1

theorem decode_wire {p : Packet} (hv : ValidPacket p) (r : Bytes) :
    Packet.decode (wire p ++ r) = .ok (some p, r) := by
  apply decodeCase_decode
  match p, hv with
  | .ascii ⟨body⟩, hv => exact .asciiGood body r hv rfl
  | .rp ⟨body⟩, hv =>
    exact .rp (escape body ++ [0x10, 0x03] ++ [UInt8.ofNat (crc16 body / 256),
      UInt8.ofNat (crc16 body % 256)] ++ r) _ (by simp [wire, rpFrame]) (.good body r rfl hv)

theorem filter_beq (l : Bytes) : l.filter (· == 0x10) = l.filter (· = 0x10) := by
  congr 1

/-! ## C16: `decode` never panics -/

/-- **C16** `Packet::decode` returns normally on every buffer. -/
theorem C16_decode_never_panics (src : Bytes) : ∃ r, Packet.decode src = .ok r := by
  obtain ⟨x, h, _⟩ := decode_cases src
  exact ⟨x, h⟩

/-- Panics are representable: the model's `advance` does panic when misused. -/
example : advance [1, 2] 3 = .error .advance := rfl

/-! ## C05: progress, and only what is returned is removed -/

/-- **C05** A returned packet removes exactly the bytes of its encoding, at least one; `None` leaves
the buffer unchanged. -/
theorem C05_progress (src : Bytes) :
    (∀ p rest, Packet.decode src = .ok (some p, rest) →
      ∃ w, p.encode = .ok w ∧ src = w ++ rest ∧ 1 ≤ w.length) ∧
    (∀ rest, Packet.decode src = .ok (none, rest) → rest = src) :=
  ⟨fun _ _ h => ⟨_, encode_decoded h, decode_some_split h, wire_length_pos h⟩,
   fun _ h => decode_none_eq h⟩

/-- **C05** Draining any buffer terminates, with a unique result, after at most as many packets as
there are bytes. -/
theorem C05_drain_terminates (src : Bytes) :
    ∃ ps left, Drains src ps left ∧ ps.length + left.length ≤ src.length ∧
      ∀ ps' left', Drains src ps' left' → ps' = ps ∧ left' = left := by
  induction hn : src.length using Nat.strongRecOn generalizing src with
  | ind n ih =>
    obtain ⟨⟨o, rest⟩, h⟩ := C16_decode_never_panics src
    match o with
    | none =>
      have := decode_none_eq h
      subst this
      refine ⟨[], rest, .stop h, by simp; omega, ?_⟩
      intro ps' left' hd
      cases hd with
      | stop h' => rw [h] at h'; simp only [Except.ok.injEq, Prod.mk.injEq] at h'
                   exact ⟨rfl, h'.2.symm⟩
      | step h' _ => rw [h] at h'; simp at h'
    | some p =>
      have hl := congrArg List.length (decode_some_split h)
      rw [List.length_append] at hl
      have hp := wire_length_pos h
      obtain ⟨ps, left, hd, hlen, huniq⟩ := ih rest.length (by omega) rest rfl
      refine ⟨p :: ps, left, .step h hd, by simp; omega, ?_⟩
      intro ps' left' hd'
      cases hd' with
      | stop h' => rw [h] at h'; simp at h'
      | step h' hd' =>
        rw [h] at h'
        simp only [Except.ok.injEq, Prod.mk.injEq, Option.some.injEq] at h'
        obtain ⟨rfl, rfl⟩ := h'
        obtain ⟨rfl, rfl⟩ := huniq _ _ hd'
        exact ⟨rfl, rfl⟩

/-! ## C01: decoding is lossless -/

/-- **C01** Whatever the bytes: encode everything decoded, append what is left, get the input. -/
theorem C01_lossless (src : Bytes) :
    ∃ ps left, Drains src ps left ∧
      ∃ ws, ps.mapM Packet.encode = .ok ws ∧ ws.flatten ++ left = src := by
  obtain ⟨ps, left, hd, h⟩ := C05_drain_terminates src
  clear h
  refine ⟨ps, left, hd, ?_⟩
  induction hd with
  | stop h =>
    rw [decode_none_eq h]
    exact ⟨[], rfl, rfl⟩
  | @step src rest p ps left h _ ih =>
    obtain ⟨ws, hw, he⟩ := ih
    refine ⟨wire p :: ws, ?_, ?_⟩
    · rw [List.mapM_cons, encode_decoded h, bind_ok, hw]; rfl
    · rw [List.flatten_cons, List.append_assoc, he, ← decode_some_split h]

/-- The same for every run, not only for the one shown to exist (the run is unique, C05). -/
theorem C01_lossless_all {src : Bytes} {ps left} (hd : Drains src ps left) :
    ∃ ws, ps.mapM Packet.encode = .ok ws ∧ ws.flatten ++ left = src := by
  obtain ⟨ps', left', hd', h⟩ := C01_lossless src
  obtain ⟨ps0, left0, _, _, hu⟩ := C05_drain_terminates src
  obtain ⟨rfl, rfl⟩ := hu _ _ hd
  obtain ⟨rfl, rfl⟩ := hu _ _ hd'
  exact h

/-- A run over garbage, a good ASCII packet and a left-over. -/
example : Drains (bs "xyz06as00??\r\n06as0066\r\n1")
    [.invalid ⟨.noPrefix, bs "xyz"⟩, .invalid ⟨.asciiCsumUnparseable, bs "06as00??\r\n"⟩,
     .ascii ⟨bs "as00"⟩] (bs "1") :=
  .step (rest := bs "06as00??\r\n06as0066\r\n1") (by rfl)
    (.step (rest := bs "06as0066\r\n1") (by rfl) (.step (rest := bs "1") (by rfl) (.stop (by rfl))))

/-! ## C02: valid packets survive the wire -/

/-- **C02** Encode, append anything, decode: the same packet and exactly what was appended. -/
theorem C02_roundtrip {p : Packet}
    (hp : (∃ v q, AsciiPacket.tryFrom v = .ok q ∧ p = .ascii q) ∨
          (∃ v q, RpPacket.tryFrom v = .ok q ∧ p = .rp q)) :
    ∃ w, p.encode = .ok w ∧ ∀ rest, Packet.decode (w ++ rest) = .ok (some p, rest) := by
  have hv : ValidPacket p := by
    rcases hp with ⟨v, q, h, rfl⟩ | ⟨v, q, h, rfl⟩
    · obtain ⟨rfl, h⟩ := ascii_tryFrom_ok.mp h; exact h
    · obtain ⟨rfl, h⟩ := rp_tryFrom_ok.mp h; exact h
  exact ⟨wire p, encode_valid hv, decode_wire hv⟩

/-- **C02** A sequence of valid packets written back to back is read back as that sequence. -/
theorem C02_sequence (ps : List Packet) (hv : ∀ p ∈ ps, ValidPacket p) (rest : Bytes) :
    ∃ ws, ps.mapM Packet.encode = .ok ws ∧ Steps (ws.flatten ++ rest) ps rest := by
  induction ps with
  | nil => exact ⟨[], rfl, .nil⟩
  | cons p ps ih =>
    obtain ⟨ws, hw, hs⟩ := ih (fun q hq => hv q (List.mem_cons_of_mem _ hq))
    have hp := hv p (List.mem_cons_self ..)
    refine ⟨wire p :: ws, by rw [List.mapM_cons, encode_valid hp, bind_ok, hw]; rfl, ?_⟩
    rw [List.flatten_cons, List.append_assoc]
    exact .cons (decode_wire hp _) hs

example : AsciiPacket.tryFrom (bs "as00") = .ok ⟨bs "as00"⟩ ∧
    Packet.encode (.ascii ⟨bs "as00"⟩) = .ok (bs "06as0066\r\n") := ⟨rfl, rfl⟩
example : RpPacket.tryFrom [1, 0x10, 2] = .ok ⟨[1, 0x10, 2]⟩ ∧
    Packet.encode (.rp ⟨[1, 0x10, 2]⟩) = .ok [0x10, 2, 1, 0x10, 0x10, 2, 0x10, 3, 0x14, 0x01] ∧
    Packet.decode [0x10, 2, 1, 0x10, 0x10, 2, 0x10, 3, 0x14, 0x01, 9]
      = .ok (some (.rp ⟨[1, 0x10, 2]⟩), [9]) :=
  ⟨rfl, by rfl, by rfl⟩

/-! ## C03: soundness -/

/-- **C03** `decode` returns a valid (Ascii or Rp) packet exactly when the buffer starts with the
encoding of a constructible packet, and it is that packet. -/
theorem C03_sound (src rest : Bytes) (p : Packet) (hp : ∀ i, p ≠ .invalid i) :
    Packet.decode src = .ok (some p, rest) ↔
      ValidPacket p ∧ ∃ w, p.encode = .ok w ∧ src = w ++ rest := by
  constructor
  · intro h
    rcases decode_some_cond h with hv | ⟨i, rfl, _⟩
    · exact ⟨hv, wire p, encode_valid hv, decode_some_split h⟩
    · exact absurd rfl (hp i)
  · rintro ⟨hv, w, hw, rfl⟩
    rw [encode_valid hv] at hw
    simp only [Except.ok.injEq] at hw
    subst hw
    exact decode_wire hv rest

/-! ## C04: constraints of decoded packets -/

/-- **C04** Ascii: printable, 2..253 bytes.  Rp: at most 1024 framed bytes.  Invalid: 1..1024. -/
theorem C04_constraints {src rest : Bytes} {p : Packet}
    (h : Packet.decode src = .ok (some p, rest)) :
    match p with
    | .ascii q => 2 ≤ q.body.length ∧ q.body.length ≤ 253 ∧
        ∀ b ∈ q.body, 0x20 ≤ b.toNat ∧ b.toNat ≤ 0x7e
    | .rp q => q.body.length + (q.body.filter (· = 0x10)).length + 6 ≤ 1024
    | .invalid i => 1 ≤ i.raw.length ∧ i.raw.length ≤ 1024 := by
  rcases decode_some_cond h with hv | ⟨i, rfl, h1, h2⟩
  · match p with
    | .ascii q => exact hv
    | .rp q =>
      have : (rpFrame q.body).length ≤ 1024 := hv
      rw [rpFrame_length] at this
      simpa [beq_iff_eq, ← filter_beq] using this
  · exact ⟨h1, h2⟩

/-! ## C06: proper prefixes wait -/

/-- **C06** Every proper prefix of a valid packet's encoding decodes to `None`, buffer unchanged. -/
theorem C06_prefix_waits {p : Packet} (hv : ValidPacket p) {w pre suf : Bytes}
    (hw : p.encode = .ok w) (hs : w = pre ++ suf) (hne : suf ≠ []) :
    Packet.decode pre = .ok (none, pre) := by
  rw [encode_valid hv] at hw
  simp only [Except.ok.injEq] at hw
  obtain ⟨⟨o, rest⟩, h⟩ := C16_decode_never_panics pre
  match o with
  | none => rw [h, decode_none_eq h]
  | some q =>
    have h1 := decode_mono h suf
    have h2 := decode_wire hv []
    rw [List.append_nil, hw, hs, h1] at h2
    simp only [Except.ok.injEq, Prod.mk.injEq, List.append_eq_nil_iff] at h2
    exact absurd h2.2.2 hne

example : Packet.decode (bs "06as0066\r") = .ok (none, bs "06as0066\r") := by rfl

/-! ## C07: chunking does not matter -/

theorem drains_append {a t : Bytes} {ps mid qs left} (h : Drains a ps mid)
    (h' : Drains (mid ++ t) qs left) : Drains (a ++ t) (ps ++ qs) left := by
  induction h with
  | stop h => rw [← decode_none_eq h]; exact h'
  | step h _ ih => exact .step (decode_mono h t) (ih h')

theorem drains_fix {a : Bytes} {ps mid} (h : Drains a ps mid) : Drains mid [] mid := by
  induction h with
  | stop h => have := decode_none_eq h; subst this; exact .stop h
  | step _ _ ih => exact ih

theorem feeds_drains {buf : Bytes} {cs ps left} (h : Feeds buf cs ps left)
    (hb : Drains buf [] buf) : Drains (buf ++ cs.flatten) ps left := by
  induction h with
  | done => simpa using hb
  | chunk h1 _ ih =>
    rw [List.flatten_cons, ← List.append_assoc]
    exact drains_append h1 (ih (drains_fix h1))

theorem drains_nil : Drains [] [] [] := .stop rfl

/-- **C07** Feeding a stream in any chunks gives the packets and left-over of feeding it at once. -/
theorem C07_chunking (chunks : List Bytes) (ps : List Packet) (left : Bytes) :
    Feeds [] chunks ps left ↔ Drains chunks.flatten ps left := by
  constructor
  · intro h; simpa using feeds_drains h drains_nil
  · intro h
    have ex : ∀ (cs : List Bytes) (buf : Bytes), ∃ ps left, Feeds buf cs ps left := by
      intro cs
      induction cs with
      | nil => intro buf; exact ⟨_, _, .done⟩
      | cons c cs ih =>
        intro buf
        obtain ⟨ps, mid, hd, _⟩ := C05_drain_terminates (buf ++ c)
        obtain ⟨qs, left, hf⟩ := ih mid
        exact ⟨_, _, .chunk hd hf⟩
    obtain ⟨ps', left', hf⟩ := ex chunks []
    have hd := feeds_drains hf drains_nil
    rw [List.nil_append] at hd
    obtain ⟨_, _, _, _, hu⟩ := C05_drain_terminates chunks.flatten
    obtain ⟨rfl, rfl⟩ := hu _ _ h
    obtain ⟨rfl, rfl⟩ := hu _ _ hd
    exact hf

/-- **C07** Hence two ways of chunking the same stream agree. -/
theorem C07_chunking_indep (cs cs' : List Bytes) (h : cs.flatten = cs'.flatten) (ps : List Packet)
    (left : Bytes) : Feeds [] cs ps left ↔ Feeds [] cs' ps left := by
  rw [C07_chunking, C07_chunking, h]

/-! ## C08: stalls -/

/-- The buffers on which `decode` gets stuck: an RP packet whose `DLE ETX` lies in the first 1024
bytes but whose two CRC bytes do not. -/
def Stuck (src : Bytes) : Prop :=
  ∃ d x, ((escape d).length = 1019 ∨ (escape d).length = 1020) ∧
    src = [0x10, 0x02] ++ escape d ++ [0x10, 0x03] ++ x

/-- **C08** (corrected form) With 1026 bytes or more buffered, `decode` returns `None` exactly on the
stuck buffers.  The property as stated ("always returns something") is false of the code, see
`C08_stalls_forever`; missing is exactly the case `Stuck`. -/
theorem C08_no_stall_partial (src : Bytes) (hl : 1026 ≤ src.length) :
    (∃ left, Packet.decode src = .ok (none, left)) ↔ Stuck src := by
  constructor
  · rintro ⟨left, h⟩
    have hc := decode_case_of h
    cases hc with
    | short h => omega
    | rp r _ hs hc =>
      cases hc with
      | more d tail h _ _ => omega
      | crcMissing d x hx hsp =>
        have hsp' : src.take 1024 = ([0x10, 0x02] ++ escape d ++ [0x10, 0x03]) ++ x := by
          rw [hsp]; simp
        obtain ⟨h1, h2, h3, h4⟩ := take_append_split hsp'
        have hlen := congrArg List.length hsp
        simp only [List.length_take, List.length_append, List.length_cons, List.length_nil] at hlen
        exact ⟨d, _, by omega, h3⟩
    | asciiMore a b n r _ _ h => have := n.toNat_lt; omega
    | scanMore a b r _ _ _ h _ => omega
  · rintro ⟨d, x, hd, rfl⟩
    refine ⟨_, decodeCase_decode (.rp (escape d ++ [0x10, 0x03] ++ x) _ (by simp)
      (.crcMissing d (x.take (1020 - (escape d).length)) ?_ ?_))⟩
    · rw [List.length_take]; omega
    · rw [List.take_append, List.take_of_length_le (by simp; omega)]
      simp only [List.append_assoc, List.cons_append, List.nil_append]
      congr 6
      rw [List.length_cons, List.length_cons, List.length_append]
      simp only [List.length_cons, List.length_nil]
      omega

/-- **C08 is false of the code**: there is a buffer of 1023 bytes after which `decode` returns `None`
whatever and however much follows: the connection is stuck for ever. -/
theorem C08_stalls_forever : ∃ src : Bytes, src.length = 1023 ∧
    ∀ more : Bytes, Packet.decode (src ++ more) = .ok (none, src ++ more) := by
  obtain ⟨d, hd, hl⟩ : ∃ d : Bytes, 0x10 ∉ d ∧ d.length = 1019 :=
    ⟨List.replicate 1019 0x41, by
      intro h; rw [List.mem_replicate] at h; exact absurd h.2 (by decide), List.length_replicate⟩
  have he : escape d = d := escape_clean hd
  refine ⟨[0x10, 0x02] ++ d ++ [0x10, 0x03], by simp; omega, ?_⟩
  intro more
  apply decodeCase_decode
  refine .rp (d ++ [0x10, 0x03] ++ more) _ (by simp) (.crcMissing d (more.take 1) ?_ ?_)
  · rw [List.length_take]; omega
  · rw [he, List.take_append, List.take_of_length_le (by simp; omega)]
    simp [hl]

/-- Refutation of C08 in its literal form. -/
theorem C08_false : ¬ ∀ src : Bytes, 1026 ≤ src.length →
    ∃ p rest, Packet.decode src = .ok (some p, rest) := by
  intro h
  obtain ⟨src, hl, hs⟩ := C08_stalls_forever
  obtain ⟨p, rest, hd⟩ := h (src ++ [0, 0, 0]) (by simp; omega)
  rw [hs] at hd
  simp at hd

/-- Non-vacuity of the positive part: a long buffer that is not stuck. -/
example (n : Nat) : ¬ Stuck (0x41 :: List.replicate n 0x41) := by
  rintro ⟨d, x, _, h⟩
  simp at h

/-! ## C09, C10: single-byte corruption of ASCII frames -/

theorem printable_hexNibble (n : UInt8) : Printable (hexNibble n) := by
  have := hexNibble_range n
  unfold Printable; omega

theorem not_mem_13 {body : Bytes} (h : ∀ b ∈ body, Printable b) (n : UInt8) :
    (13 : UInt8) ∉ body ++ hexByte n := by
  intro hm
  have : Printable 13 := by
    rcases List.mem_append.mp hm with hm | hm
    · exact h _ hm
    · simp only [hexByte, List.mem_cons, List.not_mem_nil, or_false] at hm
      rcases hm with hm | hm <;> rw [hm] <;> exact printable_hexNibble _
  revert this
  simp [Printable]

theorem append_cons_unique {a b s t : Bytes} {x : UInt8} (ha : x ∉ a) (hb : x ∉ b)
    (h : a ++ x :: s = b ++ x :: t) : a = b ∧ s = t := by
  induction a generalizing b with
  | nil =>
    match b with
    | [] => simpa using h
    | y :: b' =>
      simp only [List.nil_append, List.cons_append, List.cons.injEq] at h
      exact absurd (h.1 ▸ List.mem_cons_self ..) hb
  | cons y a' ih =>
    match b with
    | [] =>
      simp only [List.nil_append, List.cons_append, List.cons.injEq] at h
      exact absurd (h.1 ▸ List.mem_cons_self ..) ha
    | z :: b' =>
      simp only [List.cons_append, List.cons.injEq] at h
      obtain ⟨h1, h2⟩ := ih (fun hm => ha (List.mem_cons_of_mem _ hm))
        (fun hm => hb (List.mem_cons_of_mem _ hm)) h.2
      exact ⟨by rw [h.1, h1], h2⟩

theorem checksum_set {l : Bytes} {i : Nat} {v : UInt8} (hi : i < l.length)
    (h : checksum (l.set i v) = checksum l) : v = l[i] := by
  have e1 : l.set i v = l.take i ++ v :: l.drop (i + 1) := List.set_eq_take_append_cons_drop ▸ by
    simp [hi]
  have e2 : l = l.take i ++ l[i] :: l.drop (i + 1) := by
    rw [← List.drop_eq_getElem_cons hi, List.take_append_drop]
  rw [e1] at h
  conv at h => rhs; rw [e2]
  rw [checksum_append, checksum_append, checksum_cons, checksum_cons] at h
  have h1 := congrArg UInt8.toNat h
  simp only [UInt8.toNat_add, UInt8.toNat_sub] at h1
  apply UInt8.toNat_inj.mp
  have := (checksum (l.take i)).toNat_lt
  have := (checksum (l.drop (i+1))).toNat_lt
  have := v.toNat_lt
  have := l[i].toNat_lt
  omega

/-- Key fact: an ASCII frame and a one-byte corruption of it are never both the start of valid
ASCII encodings. -/
theorem corrupt_not_frame {body body' : Bytes} (hv : ValidAsciiBody body)
    (hv' : ValidAsciiBody body') {i : Nat} {v : UInt8} {s t : Bytes}
    (hi : i < (asciiFrame body).length) (hne : v ≠ (asciiFrame body)[i]) 
    (h : (asciiFrame body).set i v ++ s = asciiFrame body' ++ t) : False := by
  obtain ⟨a, b, n, hx, hn, hf⟩ := asciiFrame_split hv.2.1
  obtain ⟨a', b', n', hx', hn', hf'⟩ := asciiFrame_split hv'.2.1
  have hsplit : asciiFrame body = a :: b :: ((body ++ hexByte (checksum ([a, b] ++ body)))
      ++ 13 :: [10]) := by rw [hf]; simp
  have hsplit' : asciiFrame body' = a' :: b' :: ((body' ++ hexByte (checksum ([a', b'] ++ body')))
      ++ 13 :: [10]) := by rw [hf']; simp
  have hc := not_mem_13 hv.2.2 (checksum ([a, b] ++ body))
  have hc' := not_mem_13 hv'.2.2 (checksum ([a', b'] ++ body'))
  by_cases hi2 : i < 2
  · -- a length digit was hit: everything after the digits is unchanged
    have hd : ((asciiFrame body).set i v).drop 2 = (asciiFrame body).drop 2 := by
      rw [List.drop_set_of_lt hi2]
    have h2 : ((asciiFrame body).set i v ++ s).drop 2 = (asciiFrame body' ++ t).drop 2 := by rw [h]
    rw [drop_append_le (by rw [List.length_set, asciiFrame_length]; omega),
      drop_append_le (by rw [asciiFrame_length]; omega), hd, hsplit, hsplit'] at h2
    simp only [List.drop_succ_cons, List.drop_zero] at h2
    rw [List.append_assoc (body ++ _), List.append_assoc (body' ++ _), List.cons_append,
      List.cons_append] at h2
    obtain ⟨he, _⟩ := append_cons_unique hc hc' h2
    have hlen := congrArg List.length he
    simp only [List.length_append, hexByte_length] at hlen
    have hnn : n = n' := by
      apply UInt8.toNat_inj.mp; rw [hn, hn']; omega
    have hab : [a, b] = [a', b'] := by rw [← dehexByte_some hx, ← dehexByte_some hx', hnn]
    have hff : asciiFrame body = asciiFrame body' := by
      rw [hsplit, hsplit', he]
      simp only [List.cons.injEq, and_true] at hab
      rw [hab.1, hab.2]
    rw [← hff] at h
    have h3 := congrArg (fun l => l[i]?) h
    rw [List.getElem?_append_left (by rw [List.length_set]; exact hi),
      List.getElem?_append_left hi, List.getElem?_set_self hi, List.getElem?_eq_getElem hi] at h3
    simp only [Option.some.injEq] at h3
    exact hne h3
  · -- the length digits are intact, so both frames have the same length
    have h0 : ((asciiFrame body).set i v).take 2 = (asciiFrame body').take 2 := by
      have := congrArg (List.take 2) h
      rwa [take_of_take_eq (by rw [List.length_set, asciiFrame_length]; omega),
        take_of_take_eq (by rw [asciiFrame_length]; omega)] at this
    rw [List.take_set_of_le (by omega), hsplit, hsplit'] at h0
    simp only [List.take_succ_cons, List.take_zero, List.cons.injEq, and_true] at h0
    obtain ⟨rfl, rfl⟩ := h0
    rw [hx] at hx'
    simp only [Option.some.injEq] at hx'
    subst hx'
    have hlb : body.length = body'.length := by omega
    have hfl : ((asciiFrame body).set i v).length = (asciiFrame body').length := by
      rw [List.length_set, asciiFrame_length, asciiFrame_length, hlb]
    have hfe := (List.append_inj h hfl).1
    -- compare the checksummed part and the checksum
    have pre : (asciiFrame body).take (2 + body.length) = [a, b] ++ body := by
      rw [hf, List.append_assoc, List.append_assoc, ← List.append_assoc [a, b],
        show 2 + body.length = ([a, b] ++ body).length by simp; omega, List.take_left]
    have pre' : (asciiFrame body').take (2 + body.length) = [a, b] ++ body' := by
      rw [hf', List.append_assoc, List.append_assoc, ← List.append_assoc [a, b],
        show 2 + body.length = ([a, b] ++ body').length by simp; omega, List.take_left]
    have post : (asciiFrame body).drop (2 + body.length)
        = hexByte (checksum ([a, b] ++ body)) ++ [13, 10] := by
      rw [hf, List.append_assoc, show 2 + body.length = ([a, b] ++ body).length by simp; omega,
        List.drop_left]
    have post' : (asciiFrame body').drop (2 + body.length)
        = hexByte (checksum ([a, b] ++ body')) ++ [13, 10] := by
      rw [hf', List.append_assoc, show 2 + body.length = ([a, b] ++ body').length by simp; omega,
        List.drop_left]
    have hpre := congrArg (List.take (2 + body.length)) hfe
    have hpost := congrArg (List.drop (2 + body.length)) hfe
    rw [pre'] at hpre
    rw [post'] at hpost
    by_cases hi3 : i < 2 + body.length
    · rw [List.take_set, pre] at hpre
      rw [List.drop_set_of_lt hi3, post] at hpost
      have hcs := hexByte_inj (List.append_cancel_right hpost)
      rw [← hpre] at hcs
      have hv0 := checksum_set (by simp; omega) hcs.symm
      apply hne
      rw [hv0]
      have : (asciiFrame body)[i]? = ([a, b] ++ body)[i]? := by
        rw [← pre, List.getElem?_take_of_lt hi3]
      rw [List.getElem?_eq_getElem hi, List.getElem?_eq_getElem (by simp; omega)] at this
      simp only [Option.some.injEq] at this
      exact this.symm
    · rw [List.take_set_of_le (by omega), pre] at hpre
      have hbb : body = body' := List.append_cancel_left hpre
      subst hbb
      have h3 := congrArg (fun l => l[i]?) hfe
      rw [List.getElem?_set_self hi, List.getElem?_eq_getElem hi] at h3
      simp only [Option.some.injEq] at h3
      exact hne h3

/-- **C09** After replacing any one byte of an ASCII packet's encoding by a different value, `decode`
never returns an Ascii or Rp packet there, whatever follows. -/
theorem C09_single_byte {p : AsciiPacket} (hv : ValidPacket (.ascii p)) {w : Bytes}
    (hw : Packet.encode (.ascii p) = .ok w) {i : Nat} (hi : i < w.length) {v : UInt8}
    (hne : v ≠ w[i]) (rest : Bytes) :
    ∃ left, Packet.decode (w.set i v ++ rest) = .ok (none, left) ∨
      ∃ bad, Packet.decode (w.set i v ++ rest) = .ok (some (.invalid bad), left) := by
  rw [encode_valid hv] at hw
  simp only [Except.ok.injEq] at hw
  subst hw
  obtain ⟨⟨o, left⟩, h⟩ := C16_decode_never_panics ((wire (.ascii p)).set i v ++ rest)
  refine ⟨left, ?_⟩
  match o with
  | none => exact Or.inl h
  | some (.invalid bad) => exact Or.inr ⟨bad, h⟩
  | some (.ascii q) =>
    exfalso
    rcases decode_some_cond h with hq | ⟨_, hq, _⟩
    · exact corrupt_not_frame hv hq hi hne (decode_some_split h)
    · cases hq
  | some (.rp q) =>
    exfalso
    have hs := decode_some_split h
    obtain ⟨a, b, n, hx, hn, hf⟩ := asciiFrame_split hv.2.1
    have ha : a ≠ 0x10 ∧ b ≠ 0x02 := by
      have hx' := dehexByte_some hx
      simp only [hexByte, List.cons.injEq, and_true] at hx'
      have r1 := hexNibble_range (n >>> 4)
      have r2 := hexNibble_range n
      rw [hx'.1] at r1
      rw [hx'.2] at r2
      constructor
      · rintro rfl; simp at r1
      · rintro rfl; simp at r2
    have h0 := congrArg (fun l => l[0]?) hs
    have h1 := congrArg (fun l => l[1]?) hs
    simp only [wire, rpFrame] at h0 h1
    rw [hf] at h0 h1
    match i with
    | 0 => simp at h1; exact ha.2 h1
    | 1 => simp at h0; exact ha.1 h0
    | i + 2 => simp at h0; exact ha.1 h0

/-- **C10** If the corrupted byte is after the two length digits, `decode` returns Invalid with exactly
the corrupted frame and leaves the following bytes alone. -/
theorem C10_contained {p : AsciiPacket} (hv : ValidPacket (.ascii p)) {w : Bytes}
    (hw : Packet.encode (.ascii p) = .ok w) {i : Nat} (hi : i < w.length) (h2 : 2 ≤ i) {v : UInt8}
    (hne : v ≠ w[i]) (rest : Bytes) :
    ∃ e, Packet.decode (w.set i v ++ rest) = .ok (some (.invalid ⟨e, w.set i v⟩), rest) := by
  have h9 := C09_single_byte hv hw hi hne rest
  rw [encode_valid hv] at hw
  simp only [Except.ok.injEq] at hw
  subst hw
  obtain ⟨a, b, n, hx, hn, hf⟩ := asciiFrame_split hv.2.1
  have hlen : ((asciiFrame p.body).set i v).length = 4 + n.toNat := by
    rw [List.length_set, asciiFrame_length, hn]; omega
  have hlen2 : (wire (.ascii p)).length = (asciiFrame p.body).length := rfl
  have hs : ∃ r, (asciiFrame p.body).set i v ++ rest = a :: b :: r := by
    rw [hf]
    match i, h2 with
    | i + 2, _ => exact ⟨_, rfl⟩
  obtain ⟨r, hr⟩ := hs
  obtain ⟨q, hq, hcase⟩ := decodeAscii_full (src := (asciiFrame p.body).set i v ++ rest) (n := n)
    (by rw [List.length_append, hlen]; omega)
  have hdec : Packet.decode ((asciiFrame p.body).set i v ++ rest)
      = .ok (some q, ((asciiFrame p.body).set i v ++ rest).drop (4 + n.toNat)) := by
    rw [hr, decode_ascii r hx, ← hr, hq]
  rw [← hlen, List.take_left] at hcase
  rw [← hlen, List.drop_left] at hdec
  rcases hcase with ⟨q', rfl, _⟩ | ⟨e, rfl, _⟩
  · obtain ⟨left, h9 | ⟨bad, h9⟩⟩ := h9
    · rw [show wire (.ascii p) = asciiFrame p.body from rfl, hdec] at h9; simp at h9
    · rw [show wire (.ascii p) = asciiFrame p.body from rfl, hdec] at h9; simp at h9
  · exact ⟨e, hdec⟩

/-- Non-vacuity: corrupting the body of `as00`. -/
example : Packet.decode ((bs "06as0066\r\n").set 3 (b' 't') ++ bs "x")
    = .ok (some (.invalid ⟨.asciiCsum 0x65, bs "06at0066\r\n"⟩), bs "x") := by rfl
/-- Non-vacuity: corrupting a length digit gives something else than a valid packet. -/
example : Packet.decode ((bs "06as0066\r\n").set 1 (b' '5') ++ bs "x")
    = .ok (some (.invalid ⟨.asciiNoCrlf, bs "05as0066\r"⟩), bs "\nx") := by rfl

/-! ## C13: resynchronisation -/

theorem garbage_dehex {a b : UInt8} (h : Garbage a) : dehexByte a b = none := by
  match hx : dehexByte a b with
  | none => rfl
  | some n =>
    exfalso
    have hx' := dehexByte_some hx
    simp only [hexByte, List.cons.injEq, and_true] at hx'
    have r1 := hexNibble_range (n >>> 4)
    rw [hx'.1] at r1
    obtain ⟨h1, h2, _⟩ := h
    omega

theorem garbage_not_plausible {g t : Bytes} (hg : ∀ b ∈ g, Garbage b) {i : Nat}
    (hi : i < g.length) : ¬ PlausibleStart (g ++ t) i := by
  rintro ⟨a, b, ha, _, h⟩
  rw [List.getElem?_append_left hi, List.getElem?_eq_getElem hi] at ha
  simp only [Option.some.injEq] at ha
  have hga : Garbage a := ha ▸ hg _ (List.getElem_mem hi)
  rcases h with ⟨h, _⟩ | h
  · exact hga.2.2 h
  · rw [garbage_dehex hga] at h; simp at h

theorem wire_plausible {p : Packet} (hv : ValidPacket p) : ∃ a b r, wire p = a :: b :: r ∧
    1 ≤ r.length ∧ ((a = 0x10 ∧ b = 0x02) ∨ (dehexByte a b).isSome) := by
  match p, hv with
  | .ascii ⟨body⟩, hv =>
    obtain ⟨a, b, n, hx, hn, hf⟩ := asciiFrame_split hv.2.1
    exact ⟨a, b, _, hf, by simp [hexByte], Or.inr (by rw [hx]; rfl)⟩
  | .rp ⟨body⟩, _ => exact ⟨0x10, 0x02, _, rfl, by simp, Or.inl ⟨rfl, rfl⟩⟩

/-- Garbage followed by something that may start a packet is skipped. -/
theorem garbage_steps (g : Bytes) (hg : ∀ b ∈ g, Garbage b) {a b : UInt8} {r t : Bytes}
    (hwr : t = a :: b :: r) (hrl : 1 ≤ r.length)
    (hst : (a = 0x10 ∧ b = 0x02) ∨ (dehexByte a b).isSome) : ∃ bad : List InvalidPacket,
      Steps (g ++ t) (bad.map .invalid) t ∧
      (bad.map (·.raw)).flatten = g ∧ bad.length = (g.length + 1023) / 1024 := by
  induction hn : g.length using Nat.strongRecOn generalizing g with
  | ind n ih =>
    match hgl : g with
    | [] =>
      exact ⟨[], .nil, rfl, by simp at hn; subst hn; rfl⟩
    | x :: g' =>
      rw [← hgl] at hg hn ⊢
      have hpos : 1 ≤ g.length := by rw [hgl]; simp
      have hlen : g.length + 3 ≤ (g ++ t).length := by
        rw [hwr]; simp; omega
      -- where the first Invalid ends
      obtain ⟨k, hk1, hk2, hk3, hk4⟩ : ∃ k, 1 ≤ k ∧ k ≤ 1024 ∧ k ≤ g.length ∧
          (k = 1024 ∨ k = g.length) := by
        by_cases h : 1024 ≤ g.length
        · exact ⟨1024, by omega, by omega, h, Or.inl rfl⟩
        · exact ⟨g.length, hpos, by omega, by omega, Or.inr rfl⟩
      have hdec : Packet.decode (g ++ t)
          = .ok (some (.invalid ⟨.noPrefix, g.take k⟩), g.drop k ++ t) := by
        have e1 : (g ++ t).take k = g.take k := by
          rw [take_of_take_eq hk3]
        have e2 : (g ++ t).drop k = g.drop k ++ t := by
          rw [drop_append_le hk3]
        rw [← e1, ← e2]
        apply decodeCase_decode
        obtain ⟨y, z, hyz⟩ : ∃ y z, g ++ t = x :: y :: z := by
          rw [hgl, hwr]
          match g' with
          | [] => exact ⟨_, _, rfl⟩
          | _ :: _ => exact ⟨_, _, rfl⟩
        have hgx : Garbage x := hg x (by rw [hgl]; simp)
        refine .scanBad x y z k hyz (fun h => hgx.2.2 h.1) (garbage_dehex hgx) hk1 hk2
          (by omega) ?_ ?_
        · intro i hi
          exact garbage_not_plausible hg (by omega)
        · rcases hk4 with h | h
          · exact Or.inl h
          · refine Or.inr ⟨⟨a, b, ?_, ?_, hst⟩, by omega⟩
            · rw [h, List.getElem?_append_right (by omega), hwr]; simp
            · rw [h, List.getElem?_append_right (by omega), hwr]; simp
      obtain ⟨bad, hst, hraw, hcnt⟩ := ih (g.drop k).length (by simp; omega) (g.drop k)
        (fun b hb => hg b (List.mem_of_mem_drop hb)) rfl
      refine ⟨⟨.noPrefix, g.take k⟩ :: bad, .cons hdec hst, ?_, ?_⟩
      · simp only [List.map_cons, List.flatten_cons, hraw, List.take_append_drop]
      · simp only [List.length_cons, hcnt, List.length_drop]
        rcases hk4 with h | h
        · omega
        · omega

example : Garbage (b' 'x') ∧ Garbage 0 ∧ Garbage (b' '\n') ∧ ¬ Garbage (b' 'A') := by
  refine ⟨?_, ?_, ?_, ?_⟩ <;> simp [Garbage, b'] <;> decide

/-! ## C14: constructors and encoders -/

theorem steps_trans {a : Bytes} {ps mid qs left} (h : Steps a ps mid) (h' : Steps mid qs left) :
    Steps a (ps ++ qs) left := by
  induction h with
  | nil => exact h'
  | cons h _ ih => exact .cons h (ih h')

/-- **C13** Garbage followed by a valid packet: only Invalid packets whose raw bytes make up the
garbage, one per (started) 1024 bytes, then the valid packet. -/
theorem C13_resync (g : Bytes) (hg : ∀ b ∈ g, Garbage b) {p : Packet} (hv : ValidPacket p)
    (rest : Bytes) : ∃ (w : Bytes) (bad : List InvalidPacket), p.encode = .ok w ∧
      Steps (g ++ w ++ rest) (bad.map .invalid ++ [p]) rest ∧
      (bad.map (·.raw)).flatten = g ∧ bad.length = (g.length + 1023) / 1024 := by
  obtain ⟨a, b, r, hwr, hrl, hst⟩ := wire_plausible hv
  obtain ⟨bad, h1, h2, h3⟩ := garbage_steps g hg (t := wire p ++ rest) (r := r ++ rest)
    (by rw [hwr]; rfl) (by rw [List.length_append]; omega) hst
  refine ⟨wire p, bad, encode_valid hv, ?_, h2, h3⟩
  rw [List.append_assoc]
  exact steps_trans h1 (.cons (decode_wire hv rest) .nil)

/-- **C14** `AsciiPacket::try_from` accepts exactly printable ASCII of 2..253 bytes, keeps the bytes,
and the packet encodes (without panic) to 6 more bytes. -/
theorem C14_ascii (v : Bytes) :
    (∀ q, AsciiPacket.tryFrom v = .ok q →
      q.body = v ∧ ∃ w, Packet.encode (.ascii q) = .ok w ∧ w.length = v.length + 6) ∧
    ((∃ q, AsciiPacket.tryFrom v = .ok q) ↔
      (2 ≤ v.length ∧ v.length ≤ 253 ∧ ∀ b ∈ v, 0x20 ≤ b.toNat ∧ b.toNat ≤ 0x7e)) := by
  constructor
  · intro q h
    obtain ⟨rfl, hv⟩ := ascii_tryFrom_ok.mp h
    exact ⟨rfl, _, encode_valid (p := .ascii q) hv, asciiFrame_length _⟩
  · constructor
    · rintro ⟨q, h⟩; exact (ascii_tryFrom_ok.mp h).2
    · intro h; exact ⟨⟨v⟩, ascii_tryFrom_ok.mpr ⟨rfl, h⟩⟩

/-- **C14** `RpPacket::try_from` accepts exactly the bodies whose encoding fits in 1024 bytes, keeps the
bytes, and the packet encodes to 6 more bytes plus one per DLE. -/
theorem C14_rp (v : Bytes) :
    (∀ q, RpPacket.tryFrom v = .ok q → q.body = v ∧ ∃ w, Packet.encode (.rp q) = .ok w ∧
      w.length = v.length + 6 + (v.filter (· = 0x10)).length) ∧
    ((∃ q, RpPacket.tryFrom v = .ok q) ↔
      ∃ w, Packet.encode (.rp ⟨v⟩) = .ok w ∧ w.length ≤ 1024) := by
  constructor
  · intro q h
    obtain ⟨rfl, hv⟩ := rp_tryFrom_ok.mp h
    refine ⟨rfl, _, rp_encode_eq _, ?_⟩
    rw [rpFrame_length]
    rw [filter_beq]
    omega
  · constructor
    · rintro ⟨q, h⟩; exact ⟨_, rp_encode_eq v, (rp_tryFrom_ok.mp h).2⟩
    · rintro ⟨w, h, hl⟩
      have := rp_encode_eq v
      rw [show Packet.encode (.rp ⟨v⟩) = RpPacket.encode ⟨v⟩ from rfl, this] at h
      simp only [Except.ok.injEq] at h
      exact ⟨⟨v⟩, rp_tryFrom_ok.mpr ⟨rfl, by rw [h]; exact hl⟩⟩

example : ∃ e, AsciiPacket.tryFrom (bs "a") = .error e := ⟨_, rfl⟩
example : ∃ e, AsciiPacket.tryFrom (bs "ab\n") = .error e := ⟨_, rfl⟩

/-! ## C15: prefix-freeness -/

/-- **C15** Two different valid packets never have encodings one of which is a prefix of the other. -/
theorem C15_prefix_free {p q : Packet} (hp : ValidPacket p) (hq : ValidPacket q) {w w' : Bytes}
    (hw : p.encode = .ok w) (hw' : q.encode = .ok w') (h : w <+: w') : p = q := by
  rw [encode_valid hp] at hw
  rw [encode_valid hq] at hw'
  simp only [Except.ok.injEq] at hw hw'
  subst hw; subst hw'
  obtain ⟨t, ht⟩ := h
  have h1 := decode_wire hp t
  have h2 := decode_wire hq []
  rw [List.append_nil, ← ht, h1] at h2
  simp only [Except.ok.injEq, Prod.mk.injEq, Option.some.injEq] at h2
  exact h2.1

/-! ## C55: the encoders follow the documented formats -/

/-- **C55** Encoding a constructible packet never panics and gives exactly the documented frame. -/
theorem C55_wire_format (p : Packet) (h : ValidPacket p) :
    p.encode = .ok (match p with
      | .ascii q => asciiFrame q.body
      | .rp q => rpFrame q.body
      | .invalid q => q.raw) := by
  rw [encode_valid h]
  cases p <;> rfl

/-- The frames of the repository's tests (pkt.rs:507-542). -/
example : asciiFrame (bs "EE11030000100") = bs "0FEE11030000100EA\r\n" ∧
    rpFrame (bs "foo") = [0x10, 2] ++ bs "foo" ++ [0x10, 3, 0xaf, 0x96] ∧
    rpFrame (bs "foo" ++ [0x10] ++ bs "bar")
      = [0x10, 2] ++ bs "foo" ++ [0x10, 0x10] ++ bs "bar" ++ [0x10, 3, 0x7c, 0x63] := by
  decide +kernel
example : ValidPacket (.ascii ⟨bs "as00"⟩) := by
  refine ⟨by decide, by decide, ?_⟩
  simp [bs, Printable]
  decide

end Elk.Props
