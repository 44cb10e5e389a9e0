import Verif.Props.Mqtt
import Verif.Lemmas.Site
import Verif.Spec.Home
/-!
# Lemmas about the bridge together with a panel and a broker
-/

namespace Elk
open Spec Props

/-! ## Things that happen in the end -/

/-- If every step brings the goal nearer, or leaves things as they are without being a step of the
one who can help, and everyone keeps acting, the goal is reached. -/
theorem eventually {σ ρ ι : Type} {lt : ρ → ρ → Prop} (wf : WellFounded lt) {At : Nat → σ → Prop}
    {who : Nat → ι} {chance : ι} (fair : ∀ w, w ≠ chance → ∀ n, ∃ m, n ≤ m ∧ who m = w)
    {rank : σ → ρ} {helper : σ → ι} (hh : ∀ s, helper s ≠ chance) {goal : Nat → Prop}
    (step : ∀ n s, At n s → goal n ∨ goal (n + 1) ∨ ∃ s', At (n + 1) s' ∧
      (lt (rank s') (rank s) ∨
        (rank s' = rank s ∧ helper s' = helper s ∧ who n ≠ helper s))) :
    ∀ n s, At n s → ∃ m, n ≤ m ∧ goal m := by
  have key : ∀ r n s, rank s = r → At n s → ∃ m, n ≤ m ∧ goal m := by
    intro r
    induction r using wf.induction with
    | h r ih =>
      have inner : ∀ d n s, rank s = r → At n s → (∃ m, m = n + d ∧ who m = helper s) →
          ∃ m, n ≤ m ∧ goal m := by
        intro d
        induction d with
        | zero =>
          intro n s hr ha ⟨m, hm, hw⟩
          rcases step n s ha with h | h | ⟨s', h1, h2 | ⟨_, _, h2⟩⟩
          · exact ⟨n, Nat.le_refl _, h⟩
          · exact ⟨n + 1, Nat.le_succ _, h⟩
          · obtain ⟨m', h3, h4⟩ := ih _ (hr ▸ h2) (n + 1) s' rfl h1
            exact ⟨m', by omega, h4⟩
          · rw [Nat.add_zero] at hm
            subst hm
            exact absurd hw h2
        | succ d ih' =>
          intro n s hr ha ⟨m, hm, hw⟩
          rcases step n s ha with h | h | ⟨s', h1, h2 | ⟨h2, h3, _⟩⟩
          · exact ⟨n, Nat.le_refl _, h⟩
          · exact ⟨n + 1, Nat.le_succ _, h⟩
          · obtain ⟨m', h3, h4⟩ := ih _ (hr ▸ h2) (n + 1) s' rfl h1
            exact ⟨m', by omega, h4⟩
          · obtain ⟨m', h4, h5⟩ := ih' (n + 1) s' (h2.trans hr) h1 ⟨m, by omega, h3 ▸ hw⟩
            exact ⟨m', by omega, h5⟩
      intro n s hr ha
      obtain ⟨m, h1, h2⟩ := fair (helper s) (hh s) n
      exact inner (m - n) n s hr ha ⟨m, by omega, h2⟩
  intro n s h
  exact key _ n s rfl h

/-! ## Lines -/

theorem firstLine_line {l t : Bytes} (h : 10 ∉ l) : firstLine (l ++ 10 :: t) = some (l ++ [10]) := by
  induction l with
  | nil => rfl
  | cons x l ih =>
    rw [List.cons_append, firstLine, if_neg (by rintro rfl; exact h (List.mem_cons_self ..)),
      ih (fun hx => h (List.mem_cons_of_mem _ hx))]
    rfl

theorem firstLine_none {l : Bytes} (h : 10 ∉ l) : firstLine l = none := by
  induction l with
  | nil => rfl
  | cons x l ih =>
    rw [firstLine, if_neg (by rintro rfl; exact h (List.mem_cons_self ..)),
      ih (fun hx => h (List.mem_cons_of_mem _ hx))]
    rfl

theorem printable_ten {b : UInt8} (h : Printable b) : b ≠ 10 := by
  rintro rfl
  exact absurd h.1 (by decide)

/-- A command is one line. -/
theorem command_line {c : Command} (h : WfCommand c) :
    ∃ l, commandBytes c = l ++ [10] ∧ 10 ∉ l := by
  obtain ⟨h1, h2, h3⟩ := sentText_valid (m := c.intoMsg) h
  refine ⟨hex2 ((sentText c.intoMsg).length + 2) ++ sentText c.intoMsg ++
    hex2 ((256 - byteSum (hex2 ((sentText c.intoMsg).length + 2) ++ sentText c.intoMsg) % 256) % 256)
    ++ [13], ?_, ?_⟩
  · unfold commandBytes asciiFrame
    simp
  · have hx : ∀ n, n < 256 → 10 ∉ hex2 n := by
      intro n hn hm
      have := hex2_printable (UInt8.ofNat n)
      rw [show (UInt8.ofNat n).toNat = n by simp; omega] at this
      exact printable_ten (this 10 hm) rfl
    intro hm
    rcases List.mem_append.mp hm with hm | hm
    · rcases List.mem_append.mp hm with hm | hm
      · rcases List.mem_append.mp hm with hm | hm
        · exact hx _ (by omega) hm
        · exact printable_ten (h3 10 hm) rfl
      · exact hx _ (Nat.mod_lt _ (by decide)) hm
    · simp at hm

theorem command_pos (c : Command) : 6 ≤ (commandBytes c).length := by
  unfold commandBytes
  rw [asciiFrame_length]
  omega

/-- The panel takes the commands in order, each once it is complete. -/
theorem firstLine_commands {got rest : Bytes} {reqs : List Command}
    (hr : ∀ c ∈ reqs, WfCommand c) (hb : got ++ rest = reqs.flatMap commandBytes) :
    (firstLine got = none ∧ ∀ c t, reqs = c :: t → got.length < (commandBytes c).length) ∨
    (∃ c t, reqs = c :: t ∧ firstLine got = some (commandBytes c) ∧
      got.drop (commandBytes c).length ++ rest = t.flatMap commandBytes ∧
      (commandBytes c).length ≤ got.length) := by
  cases reqs with
  | nil =>
    rw [List.flatMap_nil] at hb
    have : got = [] := (List.append_eq_nil_iff.mp hb).1
    subst this
    exact .inl ⟨rfl, by intro c t h; cases h⟩
  | cons c t =>
    obtain ⟨l, hl, hno⟩ := command_line (hr c (List.mem_cons_self ..))
    rw [List.flatMap_cons] at hb
    rcases List.append_eq_append_iff.mp hb with ⟨u, h1, h2⟩ | ⟨u, h1, h2⟩
    · by_cases hu : u = []
      · subst hu
        rw [List.append_nil] at h1
        refine .inr ⟨c, t, rfl, ?_, ?_, ?_⟩
        · rw [← h1, hl]; exact firstLine_line hno
        · rw [h1, List.drop_length]; rw [List.nil_append] at h2 ⊢; exact h2
        · rw [h1]; exact Nat.le_refl _
      · refine .inl ⟨firstLine_none ?_, ?_⟩
        · intro hm
          have : got <+: l := by
            rw [hl] at h1
            have hp : got <+: l ++ [10] := ⟨u, h1.symm⟩
            rcases List.prefix_concat_iff.mp hp with hp | hp
            · exfalso
              rw [hp] at h1
              have := congrArg List.length h1
              simp only [List.length_append] at this
              exact hu (List.length_eq_zero_iff.mp (by omega))
            · exact hp
          exact hno (this.subset hm)
        · intro c' t' h
          cases h
          rw [h1, List.length_append]
          have := List.length_pos_iff.mpr hu
          omega
    · refine .inr ⟨c, t, rfl, ?_, ?_, ?_⟩
      · rw [h1, hl, List.append_assoc]; exact firstLine_line hno
      · rw [h1, List.drop_left]; exact h2.symm
      · rw [h1, List.length_append]; omega

/-! ## Polling a panel whose line carries frames -/

/-- The bytes that have arrived and are not yet read. -/
def inHand (p : Panel) : Bytes := p.conn.rd.buffer ++ dataOf p.conn.sock.incoming

/-- No whole message has arrived. -/
def Awaits (p : Panel) (msgs : List Message) : Prop :=
  ∀ m t, msgs = m :: t → (inHand p).length < (frame m).length

/-- What a poll gives. -/
inductive PollCase (p : Panel) (cx : Cx) (line : Bytes) (msgs : List Message) :
    Poll PanelItem → Panel → Prop
  | wait (p') : p'.cmdState = p.cmdState → inHand p' = inHand p → Awaits p msgs →
      p'.conn.sock.readWaker = some cx.waker → PollCase p cx line msgs .pending p'
  | fire (ev p') : ev.msg = none → p'.cmdState = p.cmdState → inHand p' = inHand p → Awaits p msgs →
      PollCase p cx line msgs (.ready (some (.ok ev))) p'
  | got (ev m t p') : msgs = m :: t → ev.msg = some (.ok m) → inHand p' ++ line = t.flatMap frame →
      ((∃ r f w, p.cmdState = .busy r f w ∧ Responds m r ∧ p'.cmdState = .idle) ∨
        ((∀ r f w, p.cmdState = .busy r f w → ¬ Responds m r) ∧ p'.cmdState = p.cmdState)) →
      PollCase p cx line msgs (.ready (some (.ok ev))) p'

theorem poll_frames {p : Panel} {cx : Cx} {line : Bytes} {msgs : List Message} (hg : Good p)
    (hf : Sound p.conn.rd) (hd : OnlyData p.conn.sock.incoming) (hw : ∀ m ∈ msgs, WfMessage m)
    (ht : inHand p ++ line = msgs.flatMap frame) :
    ∃ r w p', p.pollNext cx = .ok (r, w, p') ∧ Sound p'.conn.rd ∧ OnlyData p'.conn.sock.incoming ∧
      p'.conn.wbuf = p.conn.wbuf ∧ p'.conn.sock.sent = p.conn.sock.sent ∧
      p'.conn.sock.writes = p.conn.sock.writes ∧ PollCase p cx line msgs r p' := by
  obtain ⟨r, c, new, h, hs⟩ := connNext_spec p.conn cx hg.sane.rd
  obtain ⟨h1, h2, h3⟩ := next_data hf hd h
  unfold Panel.pollNext
  rw [h]
  simp only [bind_ok]
  have hsame : r = .pending → c.rd.buffer ++ dataOf c.sock.incoming = inHand p ∧ Awaits p msgs := by
    intro hr
    subst hr
    refine ⟨?_, fun m t hm => ?_⟩
    · rw [hs.other (by intro p h; cases h), List.append_assoc, ← hs.data]; rfl
    · subst hm
      exact (wait_frames hs hd (hw m (List.mem_cons_self ..)) ht).2
  rcases h3 with rfl | ⟨pkt, rfl⟩
  · obtain ⟨h4, h5⟩ := hsame rfl
    dsimp only
    unfold Panel.pollTimer
    dsimp only
    split
    · exact ⟨_, _, _, rfl, h1, h2, hs.wbuf, hs.sent, hs.writes, .wait _ rfl h4 h5 (hs.pend rfl).2⟩
    · rename_i pa hp
      split
      · cases hst : p.state.armingStatus with
        | none => exact absurd hst (hg.sane.arming (by rw [hp]; simp))
        | some prior =>
          exact ⟨_, _, _, rfl, h1, h2, hs.wbuf, hs.sent, hs.writes, .fire _ _ rfl rfl h4 h5⟩
      · exact ⟨_, _, _, rfl, h1, h2, hs.wbuf, hs.sent, hs.writes, .wait _ rfl h4 h5 (hs.pend rfl).2⟩
  · obtain ⟨m, t, rfl, rfl, h4⟩ := read_frames hs hw ht
    have hpar := parse_sent (hw m (List.mem_cons_self ..))
    obtain ⟨⟨ev, w, p'⟩, hi, hc⟩ := interpret_cases { p with conn := c } cx.now
      (.ascii ⟨sentText m⟩) (parsed_wf (hs.packet _ rfl))
    dsimp only
    rw [hi]
    have key : ev.msg = some (.ok m) ∧ p'.conn = c ∧
        ((∃ r f w, p.cmdState = .busy r f w ∧ Responds m r ∧ p'.cmdState = .idle) ∨
        ((∀ r f w, p.cmdState = .busy r f w → ¬ Responds m r) ∧ p'.cmdState = p.cmdState)) := by
      cases hc with
      | bad e he => rw [hpar] at he; cases he
      | skip he => rw [hpar] at he; cases he
      | msg m' change p1 completes woken p2 he _ htr hco =>
        rw [hpar] at he
        cases he
        obtain ⟨k1, k2, _⟩ := track_keeps htr
        cases hco with
        | done r f w hb hr => exact ⟨rfl, k1, .inl ⟨r, f, w, k2 ▸ hb, hr, rfl⟩⟩
        | busy r f w hb hr =>
          refine ⟨rfl, k1, .inr ⟨fun r' f' w' hb' => ?_, k2⟩⟩
          have hb'' : p.cmdState = .busy r f w := k2 ▸ hb
          rw [hb''] at hb'
          cases hb'
          exact hr
        | idle hb =>
          refine ⟨rfl, k1, .inr ⟨fun r' f' w' hb' => ?_, k2⟩⟩
          have hb'' : p.cmdState = .idle := k2 ▸ hb
          rw [hb''] at hb'
          cases hb'
    obtain ⟨k1, k2, k3⟩ := key
    subst k2
    exact ⟨_, _, _, rfl, h1, h2, hs.wbuf, hs.sent, hs.writes, .got _ m t _ rfl k1 h4 k3⟩

end Elk
