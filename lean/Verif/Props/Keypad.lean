import Verif.Props.InitLoop
/-!
# The "Show On Keypad" bit (C82)

pkt.rs:195-198 quotes Elk's documentation of the reply with a description: the high bit of the
first character of the text may be set, meaning that the text is shown on keypads, and is to be
masked out.
-/

namespace Elk.Spec

/-- The reply with a description as documented, with the bit set: the first character of the text
is the eighth character of the body (`SD`, two digits of the type, three of the number). -/
def shownText (r : StringDescriptionResponse) : Bytes :=
  (sentText (.stringDescriptionResponse r)).modify 7 (· ||| 0x80)

/-- What a panel may send: a message, or a description with the bit set. -/
inductive Sends where
  | plain (m : Message)
  | shown (r : StringDescriptionResponse)

/-- Its bytes. -/
def Sends.bytes : Sends → Bytes
  | .plain m => asciiFrame (sentText m)
  | .shown r => asciiFrame (shownText r)

/-- The message it stands for. -/
def Sends.meaning : Sends → Message
  | .plain m => m
  | .shown r => .stringDescriptionResponse r

/-- The bytes are read as one packet, whatever follows, and it is the message. -/
def Understood (w : Bytes) (m : Message) : Prop :=
  ∃ pkt, (∀ rest, Packet.decode (w ++ rest) = .ok (some pkt, rest)) ∧
    Message.parse pkt = .ok (some m)

end Elk.Spec

namespace Elk.Props
open Elk.Spec

/-! ## The packet -/

/-- A frame that is right except for characters that are not printable. -/
theorem decode_unprintable {body : Bytes} (h2 : 2 ≤ body.length) (h3 : body.length ≤ 253) {i : Nat}
    (hi : checkPrintable body = .error (.nonPrintable i)) (rest : Bytes) :
    Packet.decode (asciiFrame body ++ rest) =
      .ok (some (.invalid ⟨.nonPrintable i, asciiFrame body⟩), rest) := by
  obtain ⟨a, b, n, hx, hn, hf⟩ := asciiFrame_split h3
  have hlen := asciiFrame_length body
  have hd : AsciiPacket.decode (asciiFrame body) = .ok (.error (.nonPrintable i)) := by
    have e : [a, b] ++ body ++ hexByte (checksum ([a, b] ++ body)) ++ ([13, 10] : Bytes)
        = ([a, b] ++ body) ++ [hexNibble (checksum ([a, b] ++ body) >>> 4),
          hexNibble (checksum ([a, b] ++ body)), 13, 10] := by
      simp [hexByte]
    rw [hf, e, AsciiPacket.decode, splitLast4_append]
    simp only
    rw [if_pos ⟨rfl, rfl, by simp; omega⟩, AsciiPacket.decodeBody,
      dehexByte_hexByte (checksum ([a, b] ++ body)) _ _ rfl]
    simp only [ne_eq, not_true_eq_false, if_false]
    rw [sliceFrom_ok (by simp), bind_ok]
    show Except.ok (AsciiPacket.tryFrom body) = _
    unfold AsciiPacket.tryFrom
    rw [hi]
    rfl
  have hab : asciiFrame body ++ rest = a :: b :: (asciiFrame body ++ rest).drop 2 := by
    rw [hf]; rfl
  have hl : 4 + n.toNat = (asciiFrame body).length := by omega
  conv => lhs; rw [hab]
  rw [decode_ascii _ hx, ← hab]
  unfold Packet.decodeAscii
  dsimp only
  rw [hl, getTo_some (by simp), List.take_left]
  dsimp only
  rw [hd, bind_ok, advance_ok (by simp), bind_ok, List.drop_left]

theorem high_bit (b : UInt8) : ¬ Printable (b ||| 0x80) := by
  have h : ∀ x : Nat, x < 256 → ¬ (UInt8.ofNat x ||| 0x80).toNat ≤ 0x7e := by decide +kernel
  have := h b.toNat b.toNat_lt
  rw [UInt8.ofNat_toNat] at this
  exact fun hp => this hp.2

theorem check_marked {body : Bytes} (h : ∀ b ∈ body, Printable b) {k : Nat} (hk : k < body.length) :
    checkPrintable (body.modify k (· ||| 0x80)) = .error (.nonPrintable k) := by
  have : (body.modify k (· ||| 0x80)).findIdx?
      (fun b => !(decide (0x20 ≤ b) && decide (b ≤ 0x7e))) = some k := by
    rw [List.findIdx?_eq_some_iff_getElem]
    refine ⟨by rw [List.length_modify]; exact hk, ?_, ?_⟩
    · rw [List.getElem_modify, if_pos rfl]
      have := high_bit body[k]
      rw [← printable_iff] at this
      simp only [Bool.not_eq_true] at this
      rw [this]
      rfl
    · intro j hj
      rw [List.getElem_modify, if_neg (by omega)]
      rw [(printable_iff _).mpr (h _ (List.getElem_mem _))]
      decide
  unfold checkPrintable
  rw [this]

theorem sd_length (r : StringDescriptionResponse) :
    (sentText (.stringDescriptionResponse r)).length = 25 := by
  simp [sentText, msgText, msgData, reservedLen, dec2, dec3]

/-- **C82** does not hold, for any description: with the bit set, it is reported as an invalid
packet, because the first character of the text is not printable. -/
theorem C82_invalid (r : StringDescriptionResponse) (hw : WfText r.text) (rest : Bytes) :
    Packet.decode (asciiFrame (shownText r) ++ rest) =
      .ok (some (.invalid ⟨.nonPrintable 7, asciiFrame (shownText r)⟩), rest) := by
  have hl := sd_length r
  have hv := sentText_valid (m := .stringDescriptionResponse r) hw
  refine decode_unprintable ?_ ?_ (check_marked hv.2.2 (by omega)) rest <;>
  · rw [List.length_modify]
    omega

/-- **C82** (partial: only messages and descriptions without the bit.) -/
theorem C82_understood_partial (m : Message) (hw : WfMessage m) :
    Understood (Sends.plain m).bytes m :=
  ⟨_, decode_wire (p := .ascii ⟨sentText m⟩) (sentText_valid hw), parse_sent hw⟩

/-- **C82** does not hold as stated. -/
theorem C82_false (r : StringDescriptionResponse) (hw : WfText r.text) (m : Message) :
    ¬ Understood (Sends.shown r).bytes m := by
  rintro ⟨pkt, h1, h2⟩
  have := h1 []
  rw [Sends.bytes, C82_invalid r hw] at this
  cases this
  cases h2

/-- The front door's name, as zone 3, shown on keypads. -/
example : asciiFrame (shownText ⟨.zone, 3, frontDoor⟩) =
    bs "1BSD00003" ++ [0xc6] ++ bs "ront door      0086\r\n" := by decide +kernel

/-! ## What has been received -/

theorem hist_read {ph ph' : Phase} {ops outs} (h : IHist ph ops outs ph') :
    ∀ {c : Connection}, connOf ph = some c → ∃ bytes more left,
      dataBytes (c.sock.incoming ++ arrivedInit ops) = bytes ++ more ∧
      Steps (c.rd.buffer ++ bytes) (gottenPackets outs) left := by
  induction h with
  | nil _ => exact fun _ => ⟨[], _, _, rfl, .nil⟩
  | finished _ => exact fun _ => ⟨[], _, _, rfl, .nil⟩
  | @cons i op o ph ops os ph' hg hc ht ih =>
    intro c h0
    cases h0
    cases h1 : connOf ph with
    | some c1 =>
      obtain ⟨new, hr⟩ := initRead_step hc h1
      obtain ⟨bytes, more, left, e1, e2⟩ := ih h1
      refine ⟨new ++ bytes, more, left, ?_, ?_⟩
      · rw [arrivedInit_cons, ← List.append_assoc, dataBytes_append, hr.data, List.append_assoc,
          ← dataBytes_append, e1, List.append_assoc]
      · rw [gottenPackets_cons, ← List.append_assoc]
        exact steps_append hr.steps e2
    | none =>
      have hos : os = [] := by
        cases ph with
        | asking _ => cases h1
        | finished r => exact (finished_end ht).1
      have ho : gottenPackets [o] = [] := by
        cases hc with
        | arrive r => rfl
        | writable r => rfl
        | tick cx _ h =>
          cases h with
          | ask _ _ => rfl
          | flushPending _ _ _ => rfl
          | flushFailed _ _ _ _ => rfl
          | flushed _ _ _ => rfl
          | readPending _ _ _ _ => rfl
          | readEnded _ _ _ _ => rfl
          | readFailed _ _ _ _ _ => rfl
          | other _ _ _ _ _ _ _ _ _ _ => cases h1
          | reply _ _ _ _ _ _ _ _ _ _ _ _ _ hcase => rw [reply_conn hcase] at h1; cases h1
      subst hos
      rw [ho]
      exact ⟨[], _, _, rfl, .nil⟩

/-- Every event is for a packet, and its message is the packet's. -/
theorem hist_msg {ph ph' : Phase} {ops outs} (h : IHist ph ops outs ph') :
    ∀ ev ∈ gotten outs, ∀ m, ev.msg = some (.ok m) →
      ∃ pkt ∈ gottenPackets outs, Message.parse pkt = .ok (some m) := by
  induction h with
  | nil _ => intro ev h; cases h
  | finished _ => intro ev h; cases h
  | @cons i op o ph ops os ph' hg hc ht ih =>
    intro ev hev m hm
    rw [gotten_cons, List.mem_append] at hev
    rw [gottenPackets_cons]
    rcases hev with hev | hev
    · have key : ∀ {p p' : Panel} {now pkt ev' w}, InterpCase p now pkt (ev', w, p') →
          o = .got ev' → ∃ pkt ∈ gottenPackets [o] ++ gottenPackets os,
            Message.parse pkt = .ok (some m) := by
        intro p p' now pkt ev' w hi ho
        subst ho
        have : ev = ev' := by simpa [gotten] using hev
        subst this
        have hp : ev.pkt = some pkt := by cases hi <;> rfl
        exact ⟨pkt, by simp [gottenPackets, gotten, hp], interp_msg hi hm⟩
      cases hc with
      | arrive r => cases hev
      | writable r => cases hev
      | tick cx _ h =>
        cases h with
        | ask _ _ => cases hev
        | flushPending _ _ _ => cases hev
        | flushFailed _ _ _ _ => cases hev
        | flushed _ _ _ => cases hev
        | readPending _ _ _ _ => cases hev
        | readEnded _ _ _ _ => cases hev
        | readFailed _ _ _ _ _ => cases hev
        | other _ _ _ _ _ _ _ _ hi _ => exact key hi rfl
        | reply _ _ _ _ _ _ _ _ _ _ hi _ _ _ => exact key hi rfl
    · obtain ⟨pkt, h1, h2⟩ := ih ev hev m hm
      exact ⟨pkt, List.mem_append_right _ h1, h2⟩

theorem steps_sub {a : Bytes} {ps left} (h : Steps a ps left) : ∀ {more s : Bytes} {qs},
    s = a ++ more → Steps s qs [] → ∀ p ∈ ps, p ∈ qs := by
  induction h with
  | nil => intro _ _ _ _ _ p hp; cases hp
  | @cons src mid p ps rest hd _ ih =>
    intro more s qs hs h2 p' hp'
    have hd' := decode_mono hd more
    cases h2 with
    | nil =>
      have : src = [] := (List.append_eq_nil_iff.mp hs.symm).1
      subst this
      cases hd
    | cons hd2 ht =>
      rw [hs, hd'] at hd2
      cases hd2
      rcases List.mem_cons.mp hp' with rfl | h
      · exact List.mem_cons_self ..
      · exact List.mem_cons_of_mem _ (ih rfl ht _ h)

/-- The packets a panel's bytes are read as. -/
def Sends.pkt : Sends → Packet
  | .plain m => .ascii ⟨sentText m⟩
  | .shown r => .invalid ⟨.nonPrintable 7, asciiFrame (shownText r)⟩

theorem sends_steps {xs : List Sends} (h : ∀ x ∈ xs, WfMessage x.meaning) :
    Steps (xs.flatMap Sends.bytes) (xs.map Sends.pkt) [] := by
  induction xs with
  | nil => exact .nil
  | cons x xs ih =>
    have hx := h x (List.mem_cons_self ..)
    refine .cons ?_ (ih fun y hy => h y (List.mem_cons_of_mem _ hy))
    cases x with
    | plain m => exact decode_wire (p := .ascii ⟨sentText m⟩) (sentText_valid hx) _
    | shown r => exact C82_invalid r hx _

/-! ## The dialogue -/

/-- The question comes no later than the one for entry `n` of a type. -/
def NoLater (ty : TextDescriptionType) (n : Nat) : Message → Prop
  | .armingStatusRequest | .zoneStatusRequest => True
  | .stringDescriptionRequest q =>
    typeRank q.ty < typeRank ty ∨ q.ty = ty ∧ 1 ≤ q.num.toNat ∧ q.num.toNat ≤ n
  | _ => False

/-- The dialogue has not gone beyond entry `n`. -/
def NotPast (ty : TextDescriptionType) (n : Nat) : Talk → Prop
  | .toAsk q | .waiting q => NoLater ty n q
  | .done => False
  | .failed => True

theorem questions_snoc (pre : List Obs) (o : Obs) :
    questions (pre ++ [o]) = questions pre ++ questions [o] := by
  unfold questions
  rw [List.filterMap_append]

/-- The question after a reply that does not describe entry `n`. -/
theorem follow_noLater {S : Server} {ty n t} (hn : 1 ≤ n ∧ n ≤ entries ty) (hS : S.name ty n = some t)
    {q m : Message} (hq : NoLater ty n q) (hr : Responds m q)
    (hans : ∀ d r, q = .stringDescriptionRequest d → m = .stringDescriptionResponse r →
      S.Answers d r)
    (hno : ∀ r, m = .stringDescriptionResponse r → ¬ (r.ty = ty ∧ r.num.toNat = n)) :
    ∃ q', followUp q m = some q' ∧ NoLater ty n q' := by
  have hty : ty = .area ∨ ty = .task ∨ ty = .zone := by
    have h2 := hn.2
    cases ty <;> simp [entries] at h2 ⊢ <;> omega
  have after : ∀ {d : StringDescriptionRequest}, typeRank d.ty < typeRank ty →
      ∃ q', afterType d.ty = some q' ∧ NoLater ty n q' := by
    intro d hd
    rcases hty with rfl | rfl | rfl <;> cases hdt : d.ty <;> rw [hdt] at hd <;>
      simp [typeRank] at hd
    · exact ⟨_, rfl, .inr ⟨rfl, by decide, hn.1⟩⟩
    · exact ⟨_, rfl, .inl (by decide)⟩
    · exact ⟨_, rfl, .inr ⟨rfl, by decide, hn.1⟩⟩
  have sd : ∀ d r, m = .stringDescriptionResponse r → q = .stringDescriptionRequest d →
      r.ty = d.ty → ∃ q', followUp q m = some q' ∧ NoLater ty n q' := by
    intro d r hm hd _
    have hA := hans d r hd hm
    have hno' := hno r hm
    subst hm hd
    obtain ⟨hrt, hA⟩ := hA
    unfold followUp
    dsimp only
    split
    · rename_i hend
      rcases hq with hq | ⟨hq, hpos, hle⟩
      · exact after hq
      · subst hq
        rcases hA with ⟨_, h4⟩ | ⟨h3, h4, h5, h6⟩
        · rw [h4 n hle hn.2] at hS
          cases hS
        · by_cases hlt : n < r.num.toNat
          · rw [h6 n hle hlt] at hS
            cases hS
          · have : r.num.toNat ≠ n := fun h => hno' ⟨hrt, h⟩
            have hl := hn.2
            exfalso
            rcases hend with h | h <;> omega
    · rename_i hend
      refine ⟨_, rfl, ?_⟩
      rcases hq with hq | ⟨hq, hpos, hle⟩
      · exact .inl hq
      · refine .inr ⟨hq, ?_⟩
        subst hq
        have hlt : ¬ n < r.num.toNat := by
          intro hlt
          rcases hA with ⟨h3, _⟩ | ⟨_, _, _, h6⟩
          · omega
          · rw [h6 n hle hlt] at hS
            cases hS
        have : r.num.toNat ≠ n := fun h => hno' ⟨hrt, h⟩
        have h8 : entries d.ty < 256 := by cases d.ty <;> decide
        have hl := hn.2
        have h9 : (UInt8.ofNat (r.num.toNat + 1)).toNat = r.num.toNat + 1 :=
          UInt8.toNat_ofNat_of_lt' (by show _ < 256; omega)
        show 1 ≤ (UInt8.ofNat (r.num.toNat + 1)).toNat ∧ (UInt8.ofNat (r.num.toNat + 1)).toNat ≤ n
        omega
  cases hr with
  | arming r => exact ⟨_, rfl, True.intro⟩
  | zones r =>
    refine ⟨_, rfl, ?_⟩
    rcases hty with rfl | rfl | rfl
    · exact .inr ⟨rfl, by decide, hn.1⟩
    · exact .inl (by decide)
    · exact .inl (by decide)
  | rtc r => cases hq
  | code r q => cases hq
  | task t => cases hq
  | text r d h1 h2 => exact sd d r rfl rfl h1
  | noText r d h1 h2 => exact sd d r rfl rfl h1

theorem dialogue_notPast {S : Server} {ty n t} (hn : 1 ≤ n ∧ n ≤ entries ty)
    (hS : S.name ty n = some t) {s x : Talk} {outs : List Obs} (h : Dialogue s outs x) :
    ∀ pre, Obedient S (pre ++ outs) → (∀ q, s = .waiting q → (questions pre).getLast? = some q) →
    (∀ ev ∈ gotten outs, ∀ r, ev.msg = some (.ok (.stringDescriptionResponse r)) →
      ¬ (r.ty = ty ∧ r.num.toNat = n)) → NotPast ty n s → NotPast ty n x := by
  induction h with
  | nil => intro _ _ _ _ h; exact h
  | @ask q l x _ ih =>
    intro pre ho hl hno hs
    refine ih (pre ++ [.asked q]) (by rw [List.append_assoc]; exact ho) ?_
      (fun ev hev => hno ev (by rw [gotten_cons]; exact List.mem_append_right _ hev)) hs
    intro q' hq'
    cases hq'
    rw [questions_snoc]
    exact List.getLast?_concat ..
  | @reply q q' ev m l x hm hr hf _ ih =>
    intro pre ho hl hno hs
    obtain ⟨q2, e1, e2⟩ := follow_noLater hn hS hs hr
      (by
        intro d r hd hmr
        subst hd hmr
        exact ho pre ev l d r rfl (hl _ rfl) hm hr)
      (by
        intro r hmr
        subst hmr
        exact hno ev (by simp [gotten]) r hm)
    rw [hf] at e1
    cases e1
    exact ih (pre ++ [.got ev]) (by rw [List.append_assoc]; exact ho) (fun q hq => by cases hq)
      (fun ev hev => hno ev (by rw [gotten_cons]; exact List.mem_append_right _ hev)) e2
  | @last q ev m hm hr hf =>
    intro pre ho hl hno hs
    obtain ⟨q2, e1, e2⟩ := follow_noLater hn hS hs hr
      (by
        intro d r hd hmr
        subst hd hmr
        exact ho pre ev [] d r rfl (hl _ rfl) hm hr)
      (by
        intro r hmr
        subst hmr
        exact hno ev (by simp [gotten]) r hm)
    rw [hf] at e1
    cases e1
  | @other q ev l x _ _ ih =>
    intro pre ho hl hno hs
    refine ih (pre ++ [.got ev]) (by rw [List.append_assoc]; exact ho) ?_
      (fun ev hev => hno ev (by rw [gotten_cons]; exact List.mem_append_right _ hev)) hs
    rw [questions_snoc, show questions [.got ev] = [] from rfl, List.append_nil]
    exact hl
  | @flushed q l x _ ih =>
    intro pre ho hl hno hs
    refine ih (pre ++ [.flushed]) (by rw [List.append_assoc]; exact ho) ?_
      (fun ev hev => hno ev (by rw [gotten_cons]; exact List.mem_append_right _ hev)) hs
    rw [questions_snoc, show questions [.flushed] = [] from rfl, List.append_nil]
    exact hl
  | @pending q l x _ ih =>
    intro pre ho hl hno hs
    refine ih (pre ++ [.pending]) (by rw [List.append_assoc]; exact ho) ?_
      (fun ev hev => hno ev (by rw [gotten_cons]; exact List.mem_append_right _ hev)) hs
    rw [questions_snoc, show questions [.pending] = [] from rfl, List.append_nil]
    exact hl
  | @env s w l x _ ih =>
    intro pre ho hl hno hs
    refine ih (pre ++ [.env w]) (by rw [List.append_assoc]; exact ho) ?_
      (fun ev hev => hno ev (by rw [gotten_cons]; exact List.mem_append_right _ hev)) hs
    rw [questions_snoc, show questions [.env w] = [] from rfl, List.append_nil]
    exact hl
  | failed => intro _ _ _ _ _; exact True.intro

/-- **C82** The consequence for `connect`: if a panel has a name for an entry and sends it only
with the bit set, whatever else it sends, then `connect` never completes.  (Each description it
sends in reply is the documented answer, and nothing is wrong with any of its packets.) -/
theorem C82_connect_hangs (S : Server) (ty : TextDescriptionType) (n : Nat) (t : TextDescription)
    (hn : 1 ≤ n ∧ n ≤ entries ty) (hS : S.name ty n = some t) (xs : List Sends)
    (hw : ∀ x ∈ xs, WfMessage x.meaning)
    (hshown : ∀ r, .plain (.stringDescriptionResponse r) ∈ xs → ¬ (r.ty = ty ∧ r.num.toNat = n))
    (c : Connection) (hc : Fresh c) (ops : List InitOp) (outs : List Obs) (ph : Phase)
    (hbytes : dataBytes (c.sock.incoming ++ arrivedInit ops) <+: xs.flatMap Sends.bytes)
    (h : Init.connect c ops = .ok (outs, ph)) (hobey : Obedient S outs) :
    ∀ p, ph ≠ .finished (.ok p) := by
  rintro p rfl
  have hh := connect_hist hc h
  have hd := dialogue_of_hist hh
  obtain ⟨bytes, more, left, h1, h2⟩ := hist_read hh rfl
  obtain ⟨rest, hrest⟩ := hbytes
  have h2 : Steps (c.rd.buffer ++ bytes) (gottenPackets outs) left := h2
  have h1 : dataBytes (c.sock.incoming ++ arrivedInit ops) = bytes ++ more := h1
  rw [hc.rd] at h2
  have hsub := steps_sub (a := bytes) (more := more ++ rest) h2
    (by rw [← hrest, h1, List.append_assoc]) (sends_steps hw)
  refine dialogue_notPast hn hS hd [] hobey (fun q hq => by cases hq) ?_ True.intro
  intro ev hev r hm
  obtain ⟨pkt, h3, h4⟩ := hist_msg hh ev hev _ hm
  obtain ⟨x, hx, rfl⟩ := List.mem_map.mp (hsub pkt h3)
  cases x with
  | shown r' => cases h4
  | plain m =>
    have := parse_sent (hw _ hx)
    rw [show (Sends.plain m).meaning = m from rfl] at this
    rw [Sends.pkt, this] at h4
    cases h4
    exact hshown r hx

/-- The statuses are reported, then the name of area 1 is asked for and the reply has the bit set:
`connect` has received it and waits, with nothing more to write; the second question for a name is
never asked.  Without the bit it is. -/
example : ∃ x, Init.connect {} (sampleStatuses ++ [.writable (.accept 1000)] ++ sampleTicks 2 ++
      [.arrive (.data (Sends.shown ⟨.area, 1, frontDoor⟩).bytes)] ++ sampleTicks 3) = .ok x ∧
    (match x with
      | (outs, .asking i) => decide (questions outs = [.armingStatusRequest, .zoneStatusRequest,
          describe .area 1]) && decide ((gotten outs).length = 3) && decide (i.panel.conn.wbuf = [])
      | _ => false) = true := of_holds (by decide +kernel)

example : ∃ x, Init.connect {} (sampleStatuses ++ [.writable (.accept 1000)] ++ sampleTicks 2 ++
      [.arrive (.data (Sends.plain (.stringDescriptionResponse ⟨.area, 1, frontDoor⟩)).bytes)] ++
      sampleTicks 3) = .ok x ∧
    (match x with
      | (outs, .asking _) => decide (questions outs = [.armingStatusRequest, .zoneStatusRequest,
          describe .area 1, describe .area 2])
      | _ => false) = true := of_holds (by decide +kernel)

end Elk.Props
