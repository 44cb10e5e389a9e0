import Verif.Lemmas.LegibleMsg
import Verif.Props.LastWords
import Verif.Props.Grammar
/-!
# What a panel sends cannot disturb the terminal (C151)

What a panel sends, or what a file given to `read` contains, is shown only as printable ASCII and new
lines: no escape sequences for the terminal, and no lines that are not those of the program.
-/

namespace Elk.Props
open Elk.Spec

/-! ## Records -/

theorem jot_legible {s : Callsite} {fields : List (String × Dbg)} (h : ∀ f ∈ fields, Legible f.2.text) :
    LegibleRecord (jot s fields) := by
  intro f hf
  obtain ⟨g, hg, rfl⟩ := List.mem_map.mp hf
  exact h g hg

theorem jot_one {s : Callsite} {k : String} {d : Dbg} (h : Legible d.text) :
    LegibleRecord (jot s [(k, d)]) :=
  jot_legible fun f hf => by rw [List.mem_singleton.mp hf]; exact h

theorem empty_legible (s : Callsite) : LegibleRecord ⟨s, []⟩ := nofun

theorem mem_enabled {on : Callsite → Bool} {l : List Record} {r : Record} (h : r ∈ enabled on l) : r ∈ l :=
  (List.mem_filter.mp h).1

/-! ## A connected panel -/

/-- The outstanding command is well-formed. -/
def Asked (v : View) : Prop := ∀ q f, v.asked = some (q, f) → WfMessage q

theorem learns_asked {now : Nat} {v v' : View} {m : Message} {c : Option Change}
    (h : Learns now v m c v') : v'.asked = v.asked := by cases h <;> rfl

theorem tells_sound {now : Nat} {v v' : View} {src rest : Bytes} {pkt : Packet} {ev : Event}
    (hf : Front src (some pkt) rest) (h : Spec.Tells now v pkt ev v') (ha : Asked v) : SoundEvent ev ∧ Asked v' := by
  have hp : ∀ p, some pkt = some p → p.debug.Ascii := fun p hp => by cases hp; exact packet_ascii hf
  cases h with
  | message hm hl hc =>
    obtain ⟨h1, _⟩ := means_ok hf hm
    have e := learns_asked hl
    cases hc with
    | done h _ =>
      rw [e] at h
      exact ⟨⟨hp, fun m hm => h1 m hm, fun _ h => (by cases h), fun m hm => (by cases hm; exact ha _ _ h)⟩,
        fun _ _ h => (by cases h)⟩
    | unrelated h _ =>
      exact ⟨⟨hp, fun m hm => h1 m hm, fun _ h => (by cases h), fun m hm => (by cases hm)⟩,
        fun q f h => ha q f (by rw [← e]; exact h)⟩
    | idle h =>
      exact ⟨⟨hp, fun m hm => h1 m hm, fun _ h => (by cases h), fun m hm => (by cases hm)⟩,
        fun q f h => ha q f (by rw [← e]; exact h)⟩
  | fault hm =>
    obtain ⟨_, h2⟩ := means_ok hf hm
    exact ⟨⟨hp, fun m hm => (by cases hm), h2, fun m hm => (by cases hm)⟩, ha⟩
  | nothing hm => exact ⟨⟨hp, fun m hm => (by cases hm), fun m hm => (by cases hm), fun m hm => (by cases hm)⟩, ha⟩

theorem reading_asked {cx : Cx} {v v' : View} {io : Bytes} {r : Poll PanelItem}
    (h : Reading cx v io r v') (ha : Asked v) : Asked v' := by
  cases h with
  | event hf ht => exact (tells_sound hf ht ha).2
  | _ => exact ha

theorem reading_sound {cx : Cx} {v v' : View} {io : Bytes} {ev : Event}
    (h : Reading cx v io (.ready (some (.ok ev))) v') (ha : Asked v) : SoundEvent ev := by
  cases h with
  | event hf ht => exact (tells_sound hf ht ha).1
  | late => exact ⟨fun m hm => (by cases hm), fun m hm => (by cases hm), fun m hm => (by cases hm),
      fun m hm => (by cases hm)⟩

theorem flushing_asked {v v' : View} {io : Bytes} {r : Poll (Except IoErr Unit)}
    (h : Flushing v io r v') (ha : Asked v) : Asked v' := by
  cases h with
  | nothing => exact ha
  | flushed hq _ => exact fun q f h => by cases h; exact ha _ _ hq
  | stuck hq _ _ => exact ha

theorem readying_asked {v v' : View} {io : Bytes} {r : Poll (Except IoErr Unit)}
    (h : Readying v io r v') (ha : Asked v) : Asked v' := by
  cases h with
  | idle => exact ha
  | flushed _ h => exact flushing_asked h ha
  | stuck _ _ h => exact flushing_asked h ha

theorem acts_asked {v v' : View} {op : Op} {io : Bytes} {o : Out} (h : Acts v op io o v')
    (hc : ∀ c, op = .startSend c → WfCommand c) (ha : Asked v) : Asked v' := by
  cases h with
  | arrive => exact ha
  | writable => exact ha
  | next h => exact reading_asked h ha
  | send _ => exact fun q f h => by cases h; exact intoMsg_wf (hc _ rfl)
  | ready h => exact readying_asked h ha
  | flush h => exact flushing_asked h ha
  | close h _ => exact fun q f hq => flushing_asked h ha q f hq
  | closeStuck _ h => exact flushing_asked h ha

theorem remarks_legible {v : View} {m : Message} {l : List Record} (h : Remarks v m l) :
    ∀ r ∈ l, LegibleRecord r := by
  intro r hr
  cases h with
  | withheld =>
    rw [List.mem_singleton.mp hr]
    refine jot_legible ?_
    simp only [List.mem_cons, List.not_mem_nil, or_false]
    rintro f (rfl | rfl) <;> exact asr_legible _
  | twice =>
    rw [List.mem_singleton.mp hr]
    refine jot_legible ?_
    simp only [List.mem_cons, List.not_mem_nil, or_false]
    rintro f (rfl | rfl | rfl) <;> exact asr_legible _
  | plain => cases hr
  | other => cases hr

theorem received_legible {p : Packet} (h : p.debug.Ascii) :
    LegibleRecord (jot .received [("pkt", p.debug)]) := jot_one (text_legible _ (packet_shown p) h)

theorem jots_legible {v : View} {op : Op} {o : Out} {l : List Record} (h : Jots v op o l)
    (he : ∀ ev w, o = .next (.ready (some (.ok ev))) w → ∀ p, ev.pkt = some p → p.debug.Ascii)
    (hc : ∀ c, op = .startSend c → WfCommand c) : ∀ r ∈ l, LegibleRecord r := by
  intro r hr
  cases h with
  | message hm =>
    rcases List.mem_cons.mp hr with rfl | hr
    · exact received_legible (he _ _ rfl _ rfl)
    · exact remarks_legible hm r hr
  | packet =>
    rw [List.mem_singleton.mp hr]
    exact received_legible (he _ _ rfl _ rfl)
  | late =>
    rw [List.mem_singleton.mp hr]
    refine jot_legible ?_
    simp only [List.mem_cons, List.not_mem_nil, or_false]
    rintro f (rfl | rfl) <;> exact asr_legible _
  | quiet => cases hr
  | send hd =>
    have hw := intoMsg_wf (hc _ rfl)
    simp only [List.mem_cons, List.not_mem_nil, or_false] at hr
    rcases hr with rfl | rfl
    · exact jot_one (message_legible hw hd)
    · exact jot_one (sent_legible hw)
  | other => cases hr

theorem acts_ascii {v v' : View} {op : Op} {io : Bytes} {o : Out} (h : Acts v op io o v') (ha : Asked v) :
    ∀ ev w, o = .next (.ready (some (.ok ev))) w → ∀ p, ev.pkt = some p → p.debug.Ascii := by
  intro ev w ho
  subst ho
  cases h with
  | next h => exact (reading_sound h ha).pkt

theorem chronicle_legible {v v' : View} {l : List (Deed × List Record)} (h : Chronicle v l v')
    (hc : ∀ x ∈ l, ∀ c, x.1.op = .startSend c → WfCommand c) (ha : Asked v) :
    ∀ r ∈ l.flatMap Prod.snd, LegibleRecord r := by
  induction h with
  | nil => exact nofun
  | cons h1 h2 _ ih =>
    intro r hr
    rcases List.mem_append.mp (List.flatMap_cons ▸ hr) with hr | hr
    · exact jots_legible h2 (acts_ascii h1 ha) (hc _ List.mem_cons_self) r hr
    · exact ih (fun x hx => hc x (List.mem_cons_of_mem _ hx))
        (acts_asked h1 (hc _ List.mem_cons_self) ha) r hr

/-- **C151** All that a connected panel logs is legible, whatever it reads, with whatever is enabled. -/
theorem C151_panel {p0 p : Panel} (hc : Connected p0) {ops : List Op} {outs : List Out}
    (hw : ∀ c ∈ commands ops, WfCommand c) {on : Callsite → Bool} {log : List Record}
    (hr : Panel.runL on ops p0 = .ok (log, outs, p)) : ∀ r ∈ log, LegibleRecord r := by
  obtain ⟨lg, hl⟩ := C125_panel p0 ops hw
  have hrun : Panel.run ops p0 = .ok (outs, p) := by
    have := hl on
    rw [hr] at this
    obtain ⟨x, hx, h⟩ := P_bind_ok.mp this.symm
    cases h
    exact hx
  obtain ⟨v0, v, l, h0, _, h1, h2, _, _, _, h3⟩ := C126_chronicle hc hw hrun
  have h3 := h3 on
  rw [hr] at h3
  cases h3
  intro r hr
  refine chronicle_legible h1 ?_ ?_ r (mem_enabled hr)
  · intro x hx c hc
    refine hw c (List.mem_filterMap.mpr ⟨x.1.op, ?_, by rw [hc]⟩)
    rw [← h2]
    exact List.mem_map_of_mem hx
  · have := h0.asked
    rw [hc.idle] at this
    intro q f hq
    rw [← this] at hq
    cases hq

/-! ## Connecting -/

/-- The names are printable. -/
def Named (g : Greet) : Prop := ∀ ty n, WfText (g.name ty n)

/-- The question at hand. -/
def questionOf : Where → Message
  | .toAsk q => q
  | .sending q => q
  | .waiting q => q

theorem named_new : Named .new := by
  intro ty n b hb
  have : b ∈ List.replicate 16 (0x20 : UInt8) := hb
  rw [(List.mem_replicate.mp this).2]
  decide

theorem notes_name {now : Nat} {g g' : Greet} {m : Message} {c : Option Change}
    (h : Notes now g m c g') : g'.name = g.name := by cases h <;> rfl

theorem observes_sound {now : Nat} {g g' : Greet} {src rest : Bytes} {pkt : Packet} {ev : Event}
    (hf : Front src (some pkt) rest) (h : Observes now g pkt ev g') : SoundEvent ev ∧ g'.name = g.name := by
  have hp : ∀ p, some pkt = some p → p.debug.Ascii := fun p hp => by cases hp; exact packet_ascii hf
  cases h with
  | message hm hn =>
    exact ⟨⟨hp, (means_ok hf hm).1, fun _ h => (by cases h), fun _ h => (by cases h)⟩, notes_name hn⟩
  | fault hm =>
    exact ⟨⟨hp, fun _ h => (by cases h), (means_ok hf hm).2, fun _ h => (by cases h)⟩, rfl⟩
  | nothing hm =>
    exact ⟨⟨hp, fun _ h => (by cases h), fun _ h => (by cases h), fun _ h => (by cases h)⟩, rfl⟩

theorem fills_named {g g' : Greet} {q m : Message} (h : Fills g q m g') (hm : WfMessage m)
    (hn : Named g) : Named g' := by
  cases h with
  | status => exact hn
  | none => exact hn
  | named =>
    intro ty n
    dsimp only
    split
    · exact hm
    · exact hn ty n

theorem followUp_wf {q m q' : Message} (h : followUp q m = some q') : WfMessage q' := by
  have d : ∀ ty n, WfMessage (describe ty n) := fun _ _ => trivial
  unfold followUp at h
  split at h
  · cases h; trivial
  · cases h; exact d _ _
  · split at h
    · unfold afterType at h
      split at h <;> cases h
      all_goals exact d _ _
    · cases h; exact d _ _
  · cases h

/-- All is well with what connecting comes to. -/
def OutcomeFine : Outcome → Prop
  | .asking w g => WfMessage (questionOf w) ∧ Named g
  | .done g => Named g
  | .failed _ => True

theorem connects_fine {w : Where} {g : Greet} {op : InitOp} {rd wr : Bytes} {o : Obs} {x : Outcome}
    (h : Connects w g op rd wr o x) (hq : WfMessage (questionOf w)) (hn : Named g) :
    OutcomeFine x ∧ ∀ ev, o = .got ev → SoundEvent ev := by
  have no : ∀ {o : Obs}, (∀ ev, o ≠ .got ev) → ∀ ev, o = .got ev → SoundEvent ev :=
    fun h ev e => absurd e (h ev)
  cases h with
  | arrive => exact ⟨⟨hq, hn⟩, no (by simp)⟩
  | writable => exact ⟨⟨hq, hn⟩, no (by simp)⟩
  | ask => exact ⟨⟨hq, hn⟩, no (by simp)⟩
  | writing => exact ⟨⟨hq, hn⟩, no (by simp)⟩
  | written => exact ⟨⟨hq, hn⟩, no (by simp)⟩
  | unwritten => exact ⟨trivial, no (by simp)⟩
  | quiet => exact ⟨⟨hq, hn⟩, no (by simp)⟩
  | ended => exact ⟨trivial, no (by simp)⟩
  | lost => exact ⟨trivial, no (by simp)⟩
  | other hf ho _ =>
    obtain ⟨h1, h2⟩ := observes_sound hf ho
    exact ⟨⟨hq, fun ty n => by rw [h2]; exact hn ty n⟩, fun ev e => by cases e; exact h1⟩
  | reply hf ho hm _ hfi hu =>
    obtain ⟨h1, h2⟩ := observes_sound hf ho
    exact ⟨⟨followUp_wf hu, fills_named hfi (h1.msg _ hm) fun ty n => by rw [h2]; exact hn ty n⟩,
      fun ev e => by cases e; exact h1⟩
  | last hf ho hm _ hfi hu =>
    obtain ⟨h1, h2⟩ := observes_sound hf ho
    exact ⟨fills_named hfi (h1.msg _ hm) fun ty n => by rw [h2]; exact hn ty n,
      fun ev e => by cases e; exact h1⟩

theorem comments_legible {g : Greet} {m : Message} {l : List Record} (h : Comments g m l) :
    ∀ r ∈ l, LegibleRecord r := by
  intro r hr
  cases h with
  | withheld =>
    rw [List.mem_singleton.mp hr]
    refine jot_legible ?_
    simp only [List.mem_cons, List.not_mem_nil, or_false]
    rintro f (rfl | rfl) <;> exact asr_legible _
  | twice =>
    rw [List.mem_singleton.mp hr]
    refine jot_legible ?_
    simp only [List.mem_cons, List.not_mem_nil, or_false]
    rintro f (rfl | rfl | rfl) <;> exact asr_legible _
  | first => cases hr
  | plain => cases hr
  | other => cases hr

theorem utters_legible {g : Greet} {w : Where} {o : Obs} {x : Outcome} {l : List Record}
    (h : Utters g w o x l) (hq : WfMessage (questionOf w)) (hx : OutcomeFine x)
    (hs : ∀ ev, o = .got ev → SoundEvent ev) : ∀ r ∈ l, LegibleRecord r := by
  intro r hr
  cases h with
  | ask => rw [List.mem_singleton.mp hr]; exact jot_one (sent_legible hq)
  | packet => rw [List.mem_singleton.mp hr]; exact received_legible ((hs _ rfl).pkt _ rfl)
  | unrelated hp _ hc _ hd =>
    simp only [List.cons_append, List.mem_cons, List.mem_append, List.not_mem_nil, or_false] at hr
    rcases hr with rfl | hr | rfl
    · exact received_legible ((hs _ rfl).pkt _ hp)
    · exact comments_legible hc r hr
    · exact jot_one (event_legible (hs _ rfl) hd)
  | reply hp _ hc _ hd hd' =>
    simp only [List.cons_append, List.mem_cons, List.mem_append, List.not_mem_nil, or_false] at hr
    rcases hr with rfl | hr | rfl | rfl
    · exact received_legible ((hs _ rfl).pkt _ hp)
    · exact comments_legible hc r hr
    · exact jot_one (event_legible (hs _ rfl) hd)
    · exact jot_one (message_legible hx.1 hd')
  | last hp _ hc _ hd =>
    simp only [List.cons_append, List.mem_cons, List.mem_append, List.not_mem_nil, or_false] at hr
    rcases hr with rfl | hr | rfl
    · exact received_legible ((hs _ rfl).pkt _ hp)
    · exact comments_legible hc r hr
    · exact jot_one (event_legible (hs _ rfl) hd)
  | quiet => cases hr

theorem says_sound {src rest body : Bytes} {m : Message}
    (hf : Front src (some (.ascii ⟨body⟩)) rest) (h : Spec.Says body m) :
    SoundEvent ⟨some (.ascii ⟨body⟩), some (.ok m), none, none⟩ :=
  ⟨fun p hp => (by cases hp; exact packet_ascii hf), fun _ e => (by cases e; exact h.1),
    fun _ h => (by cases h), fun _ h => (by cases h)⟩

theorem dashes_legible {w : Where} {g : Greet} {op : InitOp} {rd wr : Bytes} {c : Cause}
    {l : List Record} (h : Dashes w g op rd wr c l) : ∀ r ∈ l, LegibleRecord r := by
  intro r hr
  cases h with
  | lost => cases hr
  | room _ hf hm _ _ hd =>
    simp only [List.mem_cons, List.not_mem_nil, or_false] at hr
    have := says_sound hf hm
    rcases hr with rfl | rfl
    · exact received_legible (this.pkt _ rfl)
    · exact jot_one (event_legible this hd)

/-! ## `watch` -/

/-- All is well where `watch` is. -/
def VantageFine : Vantage → Prop
  | .dialing => True
  | .greeting w g => WfMessage (questionOf w) ∧ Named g
  | .seeing areas zones v => (∀ i, ∀ b ∈ areas i, Printable b) ∧ (∀ i, ∀ b ∈ zones i, Printable b) ∧ Asked v
  | .over => True

theorem shown_mem {b : UInt8} : ∀ {t : Bytes}, b ∈ Spec.shown t → b ∈ t
  | [], h => h
  | a :: t, h => by
    unfold Spec.shown at h
    split at h
    · cases h
    · rcases List.mem_cons.mp h with rfl | h
      · exact List.mem_cons_self
      · exact List.mem_cons_of_mem _ (shown_mem h)

/-- The name in a line of `watch`. -/
def nameIn : WatchLine → Bytes
  | .zone name _ _ => name
  | .area name _ _ => name

theorem line_legible {l : WatchLine} (h : ∀ b ∈ nameIn l, Printable b) : LegibleRecord (lineShown l) := by
  have v : ∀ {α : Type} [Variants α] [TellsVariants α] (a : α), Legible (Variants.debug a).text :=
    fun a => text_legible _ (variant_fine a) (variant_ascii a)
  have z : ∀ s, LegibleField (zoneDbg s) := by
    intro s
    refine text_legible _ ?_ ?_
    · rw [Dbg.Fine, Dbg.FineItems, Dbg.FineItems, Dbg.FineItems]
      exact ⟨by decide, by simp, variant_fine _, variant_fine _, trivial⟩
    · rw [Dbg.Ascii]
      refine items_ascii ?_
      simp only [List.mem_cons, List.not_mem_nil, or_false]
      rintro x (rfl | rfl) <;> exact variant_ascii _
  intro f hf
  cases l with
  | zone name a b =>
    simp only [lineShown, List.mem_cons, List.not_mem_nil, or_false] at hf
    rcases hf with rfl | rfl | rfl
    · exact h
    · exact z a
    · exact z b
  | area name a b =>
    simp only [lineShown, List.mem_cons, List.not_mem_nil, or_false] at hf
    rcases hf with rfl | rfl | rfl | rfl | rfl | rfl | rfl
    · exact h
    all_goals exact v _

theorem sees_fine {areas : Fin 8 → Bytes} {zones : Fin 208 → Bytes} {v v' : View} {op : InitOp}
    {rd : Bytes} {o : WObs} (h : Sees areas zones v op rd o v')
    (hf : VantageFine (.seeing areas zones v)) : VantageFine (.seeing areas zones v') ∧
      ∀ ev lines, o = .event ev lines → SoundEvent ev ∧ ∀ l ∈ lines, ∀ b ∈ nameIn l, Printable b := by
  obtain ⟨ha, hz, hv⟩ := hf
  have no : ∀ {o : WObs}, (∀ ev l, o ≠ .event ev l) → ∀ ev lines, o = .event ev lines →
      SoundEvent ev ∧ ∀ l ∈ lines, ∀ b ∈ nameIn l, Printable b := fun h ev l e => absurd e (h ev l)
  cases h with
  | arrive => exact ⟨⟨ha, hz, hv⟩, no (by simp)⟩
  | writable => exact ⟨⟨ha, hz, hv⟩, no (by simp)⟩
  | idle h => exact ⟨⟨ha, hz, reading_asked h hv⟩, no (by simp)⟩
  | event h _ =>
    refine ⟨⟨ha, hz, reading_asked h hv⟩, fun ev lines e => ?_⟩
    cases e
    refine ⟨reading_sound h hv, fun l hl => ?_⟩
    rcases List.mem_append.mp hl with hl | hl
    · obtain ⟨i, _, e⟩ := List.mem_filterMap.mp hl
      split at e
      · cases e
      · rw [← Option.some.inj e]; exact ha i
    · obtain ⟨i, _, e⟩ := List.mem_filterMap.mp hl
      split at e
      · cases e
      · rw [← Option.some.inj e]; exact hz i
  | report h _ =>
    refine ⟨⟨ha, hz, reading_asked h hv⟩, fun ev lines e => ?_⟩
    cases e
    exact ⟨reading_sound h hv, fun _ hl => absurd hl List.not_mem_nil⟩
  | ended h => exact ⟨⟨ha, hz, reading_asked h hv⟩, no (by simp)⟩

theorem spots_legible {x y : Vantage} {op : WatcherOp} {rd wr : Bytes} {l : List Record}
    (h : Spots x op rd wr l y) (hf : VantageFine x) :
    VantageFine y ∧ ∀ r ∈ l, LegibleRecord r := by
  cases h with
  | reached hd =>
    refine ⟨⟨trivial, named_new⟩, fun r hr => ?_⟩
    rw [List.mem_singleton.mp hr]
    exact jot_one (message_legible (m := .armingStatusRequest) trivial hd)
  | early => exact ⟨trivial, nofun⟩
  | dialed => exact ⟨hf, nofun⟩
  | greets hc hu =>
    obtain ⟨h1, h2⟩ := connects_fine hc hf.1 hf.2
    exact ⟨h1, utters_legible hu hf.1 h1 h2⟩
  | tracks hc hu =>
    obtain ⟨h1, h2⟩ := connects_fine hc hf.1 hf.2
    refine ⟨⟨fun i b hb => h1 _ _ b (shown_mem hb), fun i b hb => h1 _ _ b (shown_mem hb),
      fun _ _ h => by cases h⟩, fun r hr => ?_⟩
    rcases List.mem_append.mp hr with hr | hr
    · exact utters_legible hu hf.1 h1 h2 r hr
    · rw [List.mem_singleton.mp hr]; exact empty_legible _
  | sees hs _ hp =>
    obtain ⟨h1, h2⟩ := sees_fine hs hf
    refine ⟨h1, fun r hr => ?_⟩
    cases hp with
    | event hj hd =>
      obtain ⟨h3, h4⟩ := h2 _ _ rfl
      rcases List.mem_append.mp hr with hr | hr
      · rcases List.mem_append.mp hr with hr | hr
        · exact jots_legible hj (fun ev w e p hp => by cases e; exact h3.pkt p hp)
            (fun c e => by cases e) r hr
        · rw [List.mem_singleton.mp hr]
          exact jot_one (event_legible h3 hd)
      · obtain ⟨l, hl, rfl⟩ := List.mem_map.mp hr
        exact line_legible (h4 l hl)
    | quiet => cases hr
  | returns => exact ⟨trivial, nofun⟩
  | past => exact ⟨trivial, nofun⟩

theorem vigil_legible {x y : Vantage} {l : List Glance} (h : Vigil x l y) (hf : VantageFine x) :
    ∀ r ∈ l.flatMap Glance.log, LegibleRecord r := by
  induction h with
  | nil => exact nofun
  | cons h1 _ ih =>
    obtain ⟨h2, h3⟩ := spots_legible h1 hf
    intro r hr
    rcases List.mem_append.mp (List.flatMap_cons ▸ hr) with hr | hr
    · exact h3 r hr
    · exact ih h2 r hr

/-- **C151** All that `elkm1-cli watch` logs is legible, whatever the panel sends, with whatever is
enabled, and whether or not it panics in the end. -/
theorem C151_watch (on : Callsite → Bool) (ops : List WatcherOp) :
    ∀ r ∈ (Watcher.runS on ops .dialing).log, LegibleRecord r := by
  intro r hr
  cases h : Watcher.runL on ops .dialing with
  | ok x =>
    obtain ⟨log, w⟩ := x
    have hs := C144_watch_same on ops .dialing
    rw [h] at hs
    obtain ⟨y, _, hs⟩ := P_bind_ok.mp hs
    injection hs with hs
    injection hs with hs _
    obtain ⟨l, x, h1, _, _, h2, _⟩ := C133_follows h
    rw [hs] at hr
    have := h2 on
    rw [h] at this
    cases this
    exact vigil_legible h1 trivial r (mem_enabled hr)
  | error e =>
    obtain ⟨l, x, op, ops₂, rd, wr, c, j, h1, _, h2, h3⟩ := C144_watch h
    rw [(h3 on).1] at hr
    have hr := List.mem_append.mp (mem_enabled hr)
    clear h3
    rcases hr with hr | hr
    · exact vigil_legible h1 trivial r hr
    · cases h2 with
      | unreachable => cases hr
      | dashes hd => exact dashes_legible hd r hr
      | broken => cases hr

/-! ## The bridge -/

/-- All is well where the bridge is. -/
def PointFine : Point → Prop
  | .dialing => True
  | .greeting w g => WfMessage (questionOf w) ∧ Named g
  | .serving code d => WfArmCode code ∧ Asked d.view ∧ ∀ c, d.doing = .ready c → WfCommand c

theorem looked_asked {cx : Cx} {v v' : View} {pf : Bool} {io : Bytes} (h : Looked cx v pf io v')
    (ha : Asked v) : Asked v' := by
  cases h with
  | no => exact ha
  | yes h => exact reading_asked h ha

theorem serves_fine {cfg : Cfg} (hcfg : ∀ a ∈ cfg.elk.areas, 1 ≤ a.1.toNat ∧ a.1.toNat ≤ 8)
    {code : ArmCode} {d d' : Desk} {op : BOp} {rd wr : Bytes} {o : BObs}
    (h : Serves cfg code d op rd wr o d') (hf : PointFine (.serving code d)) :
    PointFine (.serving code d') ∧ (∀ ev out w, o = .event ev out w → SoundEvent ev) ∧
      ∀ c, o = .accepted c → WfCommand c := by
  obtain ⟨hc, ha, hw⟩ := hf
  have no : ∀ {o : BObs}, (∀ ev l w, o ≠ .event ev l w) → ∀ ev l w, o = .event ev l w → SoundEvent ev :=
    fun h ev l w e => absurd e (h ev l w)
  have nc : ∀ {o : BObs}, (∀ c, o ≠ .accepted c) → ∀ c, o = .accepted c → WfCommand c :=
    fun h c e => absurd e (h c)
  cases h with
  | arrive => exact ⟨⟨hc, ha, hw⟩, no (by simp), nc (by simp)⟩
  | writable => exact ⟨⟨hc, ha, hw⟩, no (by simp), nc (by simp)⟩
  | deliver => exact ⟨⟨hc, ha, hw⟩, no (by simp), nc (by simp)⟩
  | event hd _ hr _ _ =>
    exact ⟨⟨hc, reading_asked hr ha, hw⟩, fun _ _ _ e => (by cases e; exact reading_sound hr ha),
      nc (by simp)⟩
  | ignores hd _ hl _ _ => exact ⟨⟨hc, looked_asked hl ha, hw⟩, no (by simp), nc (by simp)⟩
  | takes hd _ hl hk =>
    refine ⟨⟨hc, looked_asked hl ha, fun c e => ?_⟩, no (by simp), nc (by simp)⟩
    cases e
    cases hk with
    | arm a level hin _ _ => exact ⟨hcfg a hin, hc⟩
  | idle _ _ hr => exact ⟨⟨hc, reading_asked hr ha, hw⟩, no (by simp), nc (by simp)⟩
  | waits _ hr => exact ⟨⟨hc, readying_asked hr ha, hw⟩, no (by simp), nc (by simp)⟩
  | hands hd _ =>
    refine ⟨⟨hc, fun q f e => ?_, fun c e => by cases e⟩, no (by simp), fun c e => ?_⟩
    · cases e; exact intoMsg_wf (hw _ hd)
    · cases e; exact hw _ hd
  | sending _ hr => exact ⟨⟨hc, flushing_asked hr ha, hw⟩, no (by simp), nc (by simp)⟩
  | sent _ hr => exact ⟨⟨hc, flushing_asked hr ha, fun c e => (by cases e)⟩, no (by simp), nc (by simp)⟩

theorem notices_legible {cfg : Cfg} {v : View} {op : BOp} {o : BObs} {l : List Record}
    (h : Notices cfg v op o l) (hs : ∀ ev out w, o = .event ev out w → SoundEvent ev)
    (hc : ∀ c, o = .accepted c → WfCommand c) :
    ∀ r ∈ l, r.site ∉ brokerSites → LegibleRecord r := by
  intro r hr hn
  cases h with
  | event hj hd =>
    have h3 := hs _ _ _ rfl
    rcases List.mem_append.mp hr with hr | hr
    · exact jots_legible hj (fun ev w e p hp => by cases e; exact h3.pkt p hp)
        (fun c e => by cases e) r hr
    · rw [List.mem_singleton.mp hr]
      exact jot_one (event_legible h3 hd)
  | unknown =>
    simp only [List.mem_cons, List.not_mem_nil, or_false] at hr
    rcases hr with rfl | rfl <;> exact absurd (by simp [brokerSites, mailed]) hn
  | ignored =>
    simp only [List.mem_cons, List.not_mem_nil, or_false] at hr
    rcases hr with rfl | rfl | rfl <;> exact absurd (by simp [brokerSites, mailed, wanted]) hn
  | asked =>
    simp only [List.mem_cons, List.not_mem_nil, or_false] at hr
    rcases hr with rfl | rfl <;> exact absurd (by simp [brokerSites, mailed, wanted]) hn
  | hands hj =>
    exact jots_legible hj (fun ev w e p hp => by cases e) (fun c e => by cases e; exact hc _ rfl) r hr
  | quiet => cases hr

/-- All is well where the program is. -/
def ProgFine (cfg : Cfg) (x : Point) : Prop :=
  PointFine x ∧ ∀ code d, x = .serving code d → ∀ a ∈ cfg.elk.areas, 1 ≤ a.1.toNat ∧ a.1.toNat ≤ 8

theorem recounts_legible {cfg : Cfg} {x y : Point} {op : POp} {rd wr : Bytes} {out : List Published}
    {l : List Record} (h : Recounts cfg x op rd wr out l y) (hf : ProgFine cfg x) :
    ProgFine cfg y ∧ ∀ r ∈ l, r.site ∉ brokerSites → LegibleRecord r := by
  cases h with
  | reached hd =>
    refine ⟨⟨⟨trivial, named_new⟩, fun _ _ e => (by cases e)⟩, fun r hr _ => ?_⟩
    rw [List.mem_singleton.mp hr]
    exact jot_one (message_legible (m := .armingStatusRequest) trivial hd)
  | early => exact ⟨hf, nofun⟩
  | dialed => exact ⟨hf, nofun⟩
  | undelivered => exact ⟨hf, nofun⟩
  | greets _ hc hu =>
    obtain ⟨h1, h2⟩ := connects_fine hc hf.1.1 hf.1.2
    exact ⟨⟨h1, fun _ _ e => (by cases e)⟩, fun r hr _ => utters_legible hu hf.1.1 h1 h2 r hr⟩
  | opens _ hc hu hcfg hcode _ _ _ =>
    obtain ⟨h1, h2⟩ := connects_fine hc hf.1.1 hf.1.2
    refine ⟨⟨⟨hcode.1, fun _ _ h => (by cases h), fun _ h => (by cases h)⟩, fun _ _ _ => hcfg.areas⟩,
      fun r hr _ => ?_⟩
    rcases List.mem_append.mp hr with hr | hr
    · exact utters_legible hu hf.1.1 h1 h2 r hr
    · rw [List.mem_singleton.mp hr]; exact empty_legible _
  | serves hs _ hn =>
    obtain ⟨h1, h2, h3⟩ := serves_fine (hf.2 _ _ rfl) hs hf.1
    exact ⟨⟨h1, fun _ _ _ => hf.2 _ _ rfl⟩, notices_legible hn h2 h3⟩

theorem annals_legible {cfg : Cfg} {x y : Point} {l : List Entry} (h : Annals cfg x l y)
    (hf : ProgFine cfg x) :
    ProgFine cfg y ∧ ∀ r ∈ l.flatMap Entry.log, r.site ∉ brokerSites → LegibleRecord r := by
  induction h with
  | nil => exact ⟨hf, nofun⟩
  | cons h1 _ ih =>
    obtain ⟨h2, h3⟩ := recounts_legible h1 hf
    obtain ⟨h4, h5⟩ := ih h2
    refine ⟨h4, fun r hr => ?_⟩
    rcases List.mem_append.mp (List.flatMap_cons ▸ hr) with hr | hr
    · exact h3 r hr
    · exact h5 r hr

theorem words_legible {cfg : Cfg} {x : Point} {op : POp} {rd wr : Bytes} {c : Cause} {l : List Record}
    (h : LastWords cfg x op rd wr c l) (hf : ProgFine cfg x) :
    ∀ r ∈ l, r.site ∉ brokerSites → LegibleRecord r := by
  intro r hr hn
  cases h with
  | unreachable => cases hr
  | dashes _ hd => exact dashes_legible hd r hr
  | unusable _ hc hu _ =>
    obtain ⟨h1, h2⟩ := connects_fine hc hf.1.1 hf.1.2
    rcases List.mem_append.mp hr with hr | hr
    · exact utters_legible hu hf.1.1 h1 h2 r hr
    · rw [List.mem_singleton.mp hr]; exact empty_legible _
  | over => cases hr
  | report _ _ hg _ hp hd =>
    have := reading_sound hg hf.1.2.1
    simp only [List.mem_cons, List.not_mem_nil, or_false] at hr
    rcases hr with rfl | rfl
    · exact received_legible (this.pkt _ hp)
    · exact jot_one (event_legible this hd)
  | garbage =>
    simp only [List.mem_cons, List.not_mem_nil, or_false] at hr
    rcases hr with rfl | rfl <;> exact absurd (by simp [brokerSites, mailed, wanted]) hn
  | unready => cases hr
  | unsent => cases hr

/-- **C151** All that the bridge logs is legible, whatever the panel sends, with whatever is enabled, and
whether or not it panics in the end; but for the calls that show what the broker sent. -/
theorem C151_bridge {args : List Bytes} {file : Bytes → Option Bytes} {p0 : Prog}
    (h0 : Prog.main args file = .ok p0) (on : Callsite → Bool) (ops : List POp) :
    ∀ r ∈ (Prog.runS on ops p0).log, r.site ∉ brokerSites → LegibleRecord r := by
  have start : ProgFine p0.setup.cfg .dialing := ⟨trivial, fun _ _ e => (by cases e)⟩
  intro r hr hn
  cases h : progRun ops p0 with
  | ok x =>
    obtain ⟨outs, p⟩ := x
    obtain ⟨l, x, h1, _, _, _, _, _, h2⟩ := C135_follows h0 h
    have hs := C144_same on ops p0
    rw [h2 on] at hs
    obtain ⟨y, _, hs⟩ := P_bind_ok.mp hs
    injection hs with hs
    injection hs with hs _
    rw [hs] at hr
    obtain ⟨rs, hm, hr⟩ := List.mem_flatten.mp hr
    obtain ⟨d, hd, rfl⟩ := List.mem_map.mp hm
    exact (annals_legible h1 start).2 r (List.mem_flatMap.mpr ⟨d, hd, mem_enabled hr⟩) hn
  | error e =>
    obtain ⟨l, x, op, ops₂, rd, wr, c, j, h1, _, h2, h3⟩ := C144_words h0 h
    rw [(h3 on).1] at hr
    obtain ⟨h4, h5⟩ := annals_legible h1 start
    rcases List.mem_append.mp (mem_enabled hr) with hr | hr
    · exact h5 r hr hn
    · exact words_legible h2 h4 r hr hn

/-! ## `read` -/

/-- **C151** All that `elkm1-cli read` prints is legible, whatever the file contains. -/
theorem C151_read (data t : Bytes) (h : Cli.output (.ok data) = .ok t) : Legible t := by
  obtain ⟨ps, left, _, hd, hr, -⟩ := C54_read data
  unfold Cli.output at h
  rw [hr] at h
  cases h
  have ht := C117_tokens.mp hd
  refine legible_flatMap fun x hx => ?_
  rcases List.mem_append.mp hx with hy | hx
  · obtain ⟨p, hp, rfl⟩ := List.mem_map.mp hy
    refine legible_append.mpr ⟨?_, by decide⟩
    clear hx hy hr hd
    induction ht with
    | done => cases hp
    | next hf _ ih =>
      rcases List.mem_cons.mp hp with rfl | hp
      · exact packet_legible hf
      · exact ih hp
  · split at hx
    · cases hx
    · rw [List.mem_singleton.mp hx]
      exact legible_append.mpr ⟨legible_append.mpr ⟨by decide, hexDump_legible _⟩, by decide⟩

/-- Non-vacuity: a file with escape sequences and new lines of its own is printed, and none of them
is. -/
example : ∃ t, Cli.output (.ok (bs "06zs\x1b04D\r\n\x1b[31m\r\n06zs004D\r\n\x1b]0;x\x07")) = .ok t ∧
    decide (t.length = 540 ∧ Legible t ∧ 0x1b ∉ t) = true :=
  of_holds (by decide +kernel)

/-- Non-vacuity: a panel that sends such bytes, and what it logs. -/
example : ∃ r, Panel.runL (fun _ => true) [.pollNext ⟨1, 100, 100⟩, .pollNext ⟨1, 100, 100⟩]
      (samplePanel [.data (bs "\x1b[m\r\n" ++ msgBytes (.zoneChange ⟨⟨3⟩, ⟨9⟩⟩))]) = .ok r ∧
    decide (r.1.map Record.site = [.received, .received] ∧ r.1.all fun r => decide (LegibleRecord r)) = true :=
  of_holds (by decide +kernel)

/-- Of the calls that show what the broker sent this is not so: anyone who may publish to a topic for
commands may write to the terminal. -/
theorem C151_broker : ∃ r, (Bridge.start sampleCfg (samplePanel []) >>= fun b =>
      Bridge.runL (fun _ => true) [.deliver ⟨bs "elkm1/42/area/home/ha_command", bs "\x1b[2J\n"⟩,
        .tick ⟨1, 0, 0⟩ false] b) = .ok r ∧
    (r.1.any fun x => x.site == .unknownLevel && match x.fields with
      | [("ha_level", .text t)] => t == bs "\x1b[2J\n" && decide (¬ LegibleRecord x)
      | _ => false) = true :=
  of_holds (by decide +kernel)

end Elk.Props
