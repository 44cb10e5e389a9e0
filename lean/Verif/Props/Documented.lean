import Verif.Props.Main
/-!
# What the documentation of state.rs promises (C88, C89)

state.rs:6-44: the panel's buffer holds 250 characters, so a response is awaited after each command.
state.rs:48-55: the requests made on connecting.
-/

namespace Elk.Spec

/-- The size of the panel's buffer for incoming messages (state.rs:19, section 4.1.8 of Elk's
specification). -/
def bufferSize : Nat := 250

/-- The codes of the requests said to be made on connecting (state.rs:51-55). -/
def documentedRequests : List (Char × Char) := [('a', 's'), ('z', 's'), ('s', 'd'), ('k', 'a')]

/-- A request with this code is among the questions. -/
def Requested (outs : List Obs) (code : Char × Char) : Prop :=
  ∃ q ∈ questions outs, [b' code.1, b' code.2] <+: sentText q

end Elk.Spec

namespace Elk.Props
open Elk.Spec

/-! ## C88: never more than one command unanswered -/

theorem command_short (c : Command) : (commandBytes c).length ≤ 17 := by
  unfold commandBytes
  rw [asciiFrame_length]
  cases c with
  | arm m => simp [sentText, msgText, msgData, reservedLen, Command.intoMsg]
  | activateTask t => simp [sentText, msgText, msgData, reservedLen, Command.intoMsg, dec3]

theorem question_short {q : Message} (h : q ∈ allQuestions) :
    (asciiFrame (sentText q)).length ≤ 17 := by
  rw [asciiFrame_length]
  have hd : ∀ ty n, (sentText (describe ty n)).length + 6 ≤ 17 := fun ty n => by
    simp [sentText, msgText, msgData, reservedLen, describe, dec3, dec2]
  simp only [allQuestions, List.mem_append, List.mem_cons, List.not_mem_nil, or_false,
    List.mem_map] at h
  rcases h with (((rfl | rfl) | ⟨n, _, rfl⟩) | ⟨n, _, rfl⟩) | ⟨n, _, rfl⟩
  · simp [sentText, msgText, msgData, reservedLen]
  · simp [sentText, msgText, msgData, reservedLen]
  all_goals exact hd _ _

/-- **C88** At any time, what has been written since connecting exceeds the commands that have been
completed by at most one command, of at most 17 characters. -/
theorem C88_unanswered {p0 p : Panel} (hc : Connected p0) {ops : List Op} {outs : List Out}
    (hr : Panel.run ops p0 = .ok (outs, p)) (hw : ∀ c ∈ commands ops, WfCommand c) :
    ∃ done last new, commands ops = done ++ last ∧ last.length ≤ 1 ∧
      done.map Command.intoMsg = completions outs ∧
      p.conn.sock.sent = p0.conn.sock.sent ++ new ∧
      new <+: (done ++ last).flatMap commandBytes ∧
      new.length ≤ (done.flatMap commandBytes).length + 17 ∧ 17 ≤ bufferSize := by
  have ha := account hc hr
  obtain ⟨new, h1, h2⟩ := C44_wire_is_commands hc hr hw
  obtain ⟨done, last, e, hd, hl⟩ := List.map_eq_append_iff.mp ha
  have hlast : last.length ≤ 1 := by
    have := congrArg List.length hl
    rw [List.length_map] at this
    rw [this]
    cases outstanding p.cmdState <;> simp
  refine ⟨done, last, new, e, hlast, hd, h1, ⟨_, e ▸ h2⟩, ?_, by decide⟩
  have := congrArg List.length h2
  rw [e, List.flatMap_append, List.length_append, List.length_append] at this
  have hb : (last.flatMap commandBytes).length ≤ 17 := by
    match last, hlast with
    | [], _ => simp
    | [c], _ => simpa using command_short c
  omega

/-- **C88** The same while connecting: what has been written exceeds the questions before the last
one, each of which has been answered (`C37_reply_between`), by at most 17 characters. -/
theorem C88_connecting (c : Connection) (hc : Fresh c) (ops : List InitOp) (outs : List Obs)
    (ph : Phase) (h : Init.connect c ops = .ok (outs, ph)) (c' : Connection)
    (hp : connOf ph = some c') :
    c'.sock.sent <+: (questions outs).flatMap (fun q => asciiFrame (sentText q)) ∧
    c'.sock.sent.length ≤
      ((questions outs).dropLast.flatMap fun q => asciiFrame (sentText q)).length + 17 := by
  have hq := (C37_questions c hc ops outs ph h).1
  obtain ⟨w1, w2⟩ := C37_wire c hc ops outs ph h
  obtain ⟨rest, hb⟩ : ∃ rest, c'.sock.sent ++ rest =
      (questions outs).flatMap fun q => asciiFrame (sentText q) := by
    match ph, hp with
    | .asking i, hp => cases hp; exact ⟨_, w1 i rfl⟩
    | .finished (.ok p), hp => cases hp; exact ⟨[], by simpa using w2 p rfl⟩
  refine ⟨⟨rest, hb⟩, ?_⟩
  have hlen := congrArg List.length hb
  generalize questions outs = qs at *
  rcases List.eq_nil_or_concat qs with rfl | ⟨l, q, rfl⟩
  · rw [List.length_append] at hlen
    simp only [List.flatMap_nil, List.length_nil] at hlen
    omega
  · rw [List.concat_eq_append] at *
    have := question_short (hq.subset (show q ∈ l ++ [q] by simp))
    rw [List.dropLast_concat]
    rw [List.flatMap_append, List.length_append, List.length_append] at hlen
    simp only [List.flatMap_cons, List.flatMap_nil, List.append_nil] at hlen
    omega

/-- **C88** The same of the bridge, with the events it handles. -/
theorem C88_bridge {cfg : Cfg} {p0 : Panel} (hc : Connected p0) (hw : WfView p0)
    {b0 : Bridge} (hs : Bridge.start cfg p0 = .ok b0) {ops : List BOp}
    {obs : List BObs} {b : Bridge} (hr : Bridge.run ops b0 = .ok (obs, b)) :
    ∃ done last new, given obs = done ++ last ∧ last.length ≤ 1 ∧
      done.map Command.intoMsg = (handled obs).filterMap (·.completes) ∧
      b.panel.conn.sock.sent = p0.conn.sock.sent ++ new ∧
      new.length ≤ (done.flatMap commandBytes).length + 17 := by
  have hg := start_good_bridge hc hw hs
  have hh := bhist_of_run hr
  obtain ⟨r0, hr0⟩ := hc.arming
  obtain ⟨z0, hz0⟩ := hc.zones
  obtain ⟨_, code, hcode, rfl⟩ := (start_iff hr0 hz0 (hw z0 hz0)).mp hs
  obtain ⟨pops, outs, h1, h2, h3, _⟩ := bhist_panel hh
  obtain ⟨done, last, new, e1, e2, e3, e4, _, e5, _⟩ :=
    C88_unanswered hc h1 (by rw [h2]; exact given_wf hh hg)
  refine ⟨done, last, new, h2 ▸ e1, e2, ?_, e4, e5⟩
  rw [e3, ← h3]
  rfl

/-- Replies that were sent before any command was, as when tasks are activated by others. -/
def lookAlikes (n : Nat) : Bytes := (List.replicate n sampleReply).flatten

/-- **C88** The caveat of state.rs:30-33 is real: the panel may have to hold more characters than it
has room for, if it says of its own accord what looks like replies.  Here it has said everything
before the first command is sent, answers nothing, and is sent 260 characters. -/
theorem C88_look_alikes : ∃ ops outs p, arrived ops = [] ∧
    Panel.run ops (samplePanel [.data (lookAlikes 20)]) = .ok (outs, p) ∧
    bufferSize < p.conn.sock.sent.length := by
  have h : ∃ r, Panel.run ((List.replicate 20 [.startSend sampleCmd, .writable (.accept 100),
        .pollFlush ⟨1, 0, 0⟩, .pollNext ⟨1, 0, 0⟩]).flatten)
        (samplePanel [.data (lookAlikes 20)]) = .ok r ∧
      decide (bufferSize < r.2.conn.sock.sent.length) = true :=
    of_holds (by decide +kernel)
  obtain ⟨⟨outs, p⟩, h1, h2⟩ := h
  exact ⟨_, outs, p, by decide, h1, of_decide_eq_true h2⟩

/-- Non-vacuity: the second of two commands is written and not completed. -/
example : ∃ r, Panel.run [.startSend sampleCmd, .writable (.accept 100), .pollFlush ⟨1, 0, 0⟩,
        .pollNext ⟨1, 0, 0⟩, .startSend sampleCmd, .writable (.accept 100), .pollFlush ⟨1, 0, 0⟩]
      (samplePanel [.data sampleReply]) = .ok r ∧
    decide (r.2.conn.sock.sent.length = 2 * (commandBytes sampleCmd).length ∧
      (completions r.1).length = 1) = true :=
  of_holds (by decide +kernel)

/-! ## C89: requests made on connecting -/

/-- The questions that will have been asked by the end. -/
def mustAsk : Message → List Message
  | .armingStatusRequest => [.armingStatusRequest, .zoneStatusRequest, describe .area 1,
      describe .task 1, describe .zone 1]
  | .zoneStatusRequest => [.zoneStatusRequest, describe .area 1, describe .task 1, describe .zone 1]
  | .stringDescriptionRequest q => .stringDescriptionRequest q ::
    match q.ty with
    | .area => [describe .task 1, describe .zone 1]
    | .task => [describe .zone 1]
    | _ => []
  | q => [q]

/-- The same, from a point in the dialogue. -/
def mustTalk : Talk → List Message
  | .toAsk q => mustAsk q
  | .waiting q => (mustAsk q).tail
  | _ => []

theorem must_follow {q m q' : Message} (h : followUp q m = some q') :
    ∀ x ∈ (mustAsk q).tail, x ∈ mustAsk q' := by
  unfold followUp at h
  split at h
  · cases h; intro x hx; exact hx
  · cases h; intro x hx; exact hx
  · rename_i q r
    obtain ⟨ty, n⟩ := q
    intro x hx
    split at h
    · cases ty <;> cases h <;> exact hx
    · cases h
      cases ty <;> first | exact List.mem_cons_of_mem _ hx | cases hx
  · cases h

theorem must_last {q m : Message} (hr : Responds m q) (h : followUp q m = none) :
    (mustAsk q).tail = [] := by
  match q with
  | .armingStatusRequest => cases h
  | .zoneStatusRequest => cases h
  | .stringDescriptionRequest ⟨ty, n⟩ =>
    obtain ⟨r, rfl⟩ : ∃ r, m = .stringDescriptionResponse r := by
      cases hr with
      | text r _ _ _ => exact ⟨r, rfl⟩
      | noText r _ _ _ => exact ⟨r, rfl⟩
    have h : (if r.num.toNat = 0 ∨ entries ty ≤ r.num.toNat then afterType ty
      else some (describe ty (r.num.toNat + 1))) = none := h
    split at h
    · cases ty <;> first | rfl | cases h
    · cases h
  | .armRequest _ | .armingStatusReport _ | .sendTimeData _ | .sendCode _ | .rtcRequest
  | .rtcResponse _ | .stringDescriptionResponse _ | .activateTask _ | .taskChange _
  | .heartbeat _ | .zoneChange _ | .zoneStatusReport _ => rfl

theorem must_dialogue {s x : Talk} {outs : List Obs} (h : Dialogue s outs x) (hx : x = .done) :
    ∀ q ∈ mustTalk s, q ∈ questions outs := by
  induction h with
  | nil => subst hx; intro q h; cases h
  | @ask q l x _ ih =>
    intro q' hq'
    rw [questions_cons]
    have hc : mustAsk q = q :: (mustAsk q).tail := by
      cases q <;> rfl
    rw [show mustTalk (.toAsk q) = _ from hc] at hq'
    rcases List.mem_cons.mp hq' with rfl | hq'
    · exact List.mem_append_left _ (List.mem_cons_self ..)
    · exact List.mem_append_right _ (ih hx q' hq')
  | @reply q q1 ev m l x hm hr hf _ ih =>
    intro q' hq'
    rw [questions_cons]
    exact List.mem_append_right _ (ih hx q' (must_follow hf q' hq'))
  | last hm hr hf =>
    intro q' hq'
    rw [show mustTalk (.waiting _) = _ from must_last hr hf] at hq'
    cases hq'
  | other _ _ ih => intro q' hq'; rw [questions_cons]; exact List.mem_append_right _ (ih hx q' hq')
  | flushed _ ih => intro q' hq'; rw [questions_cons]; exact List.mem_append_right _ (ih hx q' hq')
  | pending _ ih => intro q' hq'; rw [questions_cons]; exact List.mem_append_right _ (ih hx q' hq')
  | env _ ih => intro q' hq'; rw [questions_cons]; exact List.mem_append_right _ (ih hx q' hq')
  | failed => cases hx

/-- **C89** Whenever `connect` succeeds, the arming and zone statuses and the first area, task and
zone names have been requested.  Missing: `ka`, which is never sent (`C89_never`). -/
theorem C89_requests_partial (c : Connection) (hc : Fresh c) (ops : List InitOp) (outs : List Obs)
    (p : Panel) (h : Init.connect c ops = .ok (outs, .finished (.ok p))) :
    (∀ code ∈ documentedRequests, code ≠ ('k', 'a') → Requested outs code) ∧
    ∀ ty, 0 < entries ty → describe ty 1 ∈ questions outs := by
  obtain ⟨x, hd, hx⟩ := C37_dialogue c hc ops outs _ h
  have hm := must_dialogue hd (hx.mpr ⟨p, rfl⟩)
  refine ⟨fun code hcode hk => ?_, fun ty ht => ?_⟩
  · simp only [documentedRequests, List.mem_cons, List.not_mem_nil, or_false] at hcode
    rcases hcode with rfl | rfl | rfl | rfl
    · exact ⟨_, hm .armingStatusRequest (by simp [mustTalk, mustAsk]), by decide⟩
    · exact ⟨_, hm .zoneStatusRequest (by simp [mustTalk, mustAsk]), by decide⟩
    · exact ⟨_, hm (describe .area 1) (by simp [mustTalk, mustAsk]), by decide⟩
    · exact absurd rfl hk
  · cases ty <;> first
      | exact absurd ht (by decide)
      | exact hm _ (by simp [mustTalk, mustAsk])

/-- **C89** The keypads' areas are never requested, whatever happens. -/
theorem C89_never (c : Connection) (hc : Fresh c) (ops : List InitOp) (outs : List Obs)
    (ph : Phase) (h : Init.connect c ops = .ok (outs, ph)) : ¬ Requested outs ('k', 'a') := by
  rintro ⟨q, hq, hp⟩
  have hq := (C37_questions c hc ops outs ph h).1.subset hq
  have hd : ∀ ty n, ¬ [b' 'k', b' 'a'] <+: sentText (describe ty n) := fun ty n hp => by
    obtain ⟨t, ht⟩ := hp
    have := congrArg List.head? ht
    exact absurd this (by
      show some (b' 'k') ≠ some (b' 's')
      decide)
  simp only [allQuestions, List.mem_append, List.mem_cons, List.not_mem_nil, or_false,
    List.mem_map] at hq
  rcases hq with (((rfl | rfl) | ⟨n, _, rfl⟩) | ⟨n, _, rfl⟩) | ⟨n, _, rfl⟩
  · exact absurd hp (by decide)
  · exact absurd hp (by decide)
  all_goals exact hd _ _ hp

/-- `connect` has succeeded. -/
def succeeded : Phase → Bool
  | .finished (.ok _) => true
  | _ => false

theorem succeeded_iff {ph : Phase} (h : succeeded ph = true) : ∃ p, ph = .finished (.ok p) := by
  unfold succeeded at h
  split at h
  · exact ⟨_, rfl⟩
  · cases h

/-- A conversation with a panel without names. -/
def sampleConnect : List InitOp := [.arrive (.data sampleDialogue)] ++
  List.replicate 5 (.writable (.accept 1000)) ++ List.replicate 15 (.tick ⟨1, 0, 0⟩)

theorem sampleConnect_succeeds :
    ∃ outs p, Init.connect {} sampleConnect = .ok (outs, .finished (.ok p)) := by
  have h : ∃ r, Init.connect {} sampleConnect = .ok r ∧ succeeded r.2 = true :=
    of_holds (by decide +kernel)
  obtain ⟨⟨outs, ph⟩, h1, h2⟩ := h
  obtain ⟨p, hp⟩ := succeeded_iff h2
  exact ⟨outs, p, hp ▸ h1⟩

/-- **C89** Not every documented request is made: a successful `connect` without `ka`. -/
theorem C89_false : ∃ c ops outs p, Fresh c ∧
    Init.connect c ops = .ok (outs, .finished (.ok p)) ∧
    ¬ ∀ code ∈ documentedRequests, Requested outs code := by
  obtain ⟨outs, p, h⟩ := sampleConnect_succeeds
  have hf : Fresh {} := ⟨rfl, rfl, rfl, rfl⟩
  exact ⟨_, _, outs, p, hf, h, fun hall =>
    C89_never _ hf _ _ _ h (hall _ (by simp [documentedRequests]))⟩

end Elk.Props
