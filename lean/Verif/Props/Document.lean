import Verif.Props.JsonText
import Verif.Lemmas.Document
/-!
# C138: exactly what is published of an event
-/

namespace Elk.Props
open Elk.Spec

/-- **C138** The JSON form of a message is what its text on the wire spells, with the names of Elk's
codes; and serialising panics exactly if there is none. -/
theorem C138_message {m : Message} (hm : WfMessage m) :
    (∀ j, m.serialize = .ok j ↔ spell (msgText m) = some j) ∧
    ((∃ p, m.serialize = .error p) ↔ spell (msgText m) = none) := by
  have h := doc_message hm
  cases hs : m.serialize with
  | ok j =>
    rw [hs] at h
    rw [h]
    exact ⟨fun j' => ⟨fun e => by injection e with e; rw [e], fun e => by injection e with e; rw [e]⟩,
      ⟨(fun ⟨_, e⟩ => nomatch e), (fun e => nomatch e)⟩⟩
  | error p =>
    rw [hs] at h
    rw [h]
    exact ⟨fun j' => ⟨(fun e => nomatch e), (fun e => nomatch e)⟩, ⟨fun _ => rfl, fun _ => ⟨p, rfl⟩⟩⟩

/-- **C138** The only message without one is the report on all zones. -/
theorem C138_unspelled {m : Message} (hm : WfMessage m) :
    spell (msgText m) = none ↔ ∃ r, m = .zoneStatusReport r := by
  rw [← (C138_message hm).2]
  constructor
  · rintro ⟨p, h⟩
    cases m with
    | zoneStatusReport r => exact ⟨r, rfl⟩
    | _ => cases h
  · rintro ⟨r, rfl⟩
    exact ⟨_, rfl⟩

/-- **C138** The JSON form of an event of well-formed messages. -/
theorem C138_event {e : Event} (hm : ∀ m, e.msg = some (.ok m) → WfMessage m)
    (hc : ∀ m, e.completes = some m → WfMessage m) (j : Json) :
    e.serialize = .ok j ↔ eventDoc e = some j := by
  rw [← doc_event hm hc]
  exact written_ok

/-- **C138** The text of a JSON value: every part on a line of its own, two characters to the right of
what it is part of. -/
theorem C138_text (j : Json) : (Payload.json j).bytes = textOfJson j := text_json j

theorem handled_wf {b b' : Bridge} {ops obs} (h : BHist b ops obs b') (hg : BGood b) :
    ∀ e ∈ handled obs, (∀ m, e.msg = some (.ok m) → WfMessage m) ∧
      ∀ m, e.completes = some m → WfMessage m := by
  induction h with
  | nil => intro e he; cases he
  | @cons b op o b1 ops os b2 hc _ ih =>
    intro e he
    rw [handled_cons] at he
    rcases List.mem_append.mp he with he | he
    · cases hc with
      | event cx pf ev out w panel hw hn hp =>
        simp [handled] at he
        subst he
        refine ⟨?_, ?_⟩
        · intro m hm
          have hsc := step_cases hg.good.sane (next_step.mpr hn)
          cases hsc with
          | next _ new _ _ _ hn =>
            cases hn with
            | packet pkt c ev w _ _ hi =>
              cases hi with
              | bad e _ => cases hm
              | skip _ => cases hm
              | msg m ch q comp w _ _ hw _ _ => cases hm; exact hw
            | fire _ _ _ _ _ _ _ => cases hm
        · intro m hm
          obtain ⟨c, hc, rfl⟩ := completes_command hg.good hg.busy hn hm
          exact hc
      | _ => simp [handled] at he
    · exact ih (bcase_good hc hg) e he

/-- **C138** What is on the event topic, to the byte: the texts of the events, in order, none missing
and nothing else. -/
theorem C138_topic {cfg : Cfg} {p0 : Panel} (hc : Connected p0) (hw : WfView p0)
    {b0 : Bridge} (hs : Bridge.start cfg p0 = .ok b0) {ops : List BOp}
    {obs : List BObs} {b : Bridge} (hr : Bridge.run ops b0 = .ok (obs, b)) :
    (textsOn (cfg.prefix ++ bs "/event") b.log).map some =
      (handled obs).map fun e => (eventDoc e).map textOfJson := by
  obtain ⟨js, h1, h2⟩ := textsOn_events hc hw hs hr
  rw [h2, List.map_map]
  have hrd := handled_wf (bhist_of_run hr) (start_good_bridge hc hw hs)
  revert hrd h1
  generalize handled obs = l
  clear h2
  induction l generalizing js with
  | nil => intro h1 _; cases js with
    | nil => rfl
    | cons => cases h1
  | cons e l ih =>
    intro h1 hrd
    cases js with
    | nil => cases h1
    | cons j js =>
      simp only [List.map_cons, List.cons.injEq] at h1 ⊢
      obtain ⟨w1, w2⟩ := hrd e List.mem_cons_self
      refine ⟨?_, ih js h1.2 fun e he => hrd e (List.mem_cons_of_mem _ he)⟩
      rw [(C138_event w1 w2 j).mp h1.1]
      show some j.toStringPretty = some (textOfJson j)
      rw [text_json]

/-- Non-vacuity: what the wire text of a request to arm, and of a heartbeat, spell. -/
example : (spell (bs "a21007531")).map textOfJson = some (bs "{
  \"armRequest\": {
    \"area\": 1,
    \"level\": \"armedStay\",
    \"code\": [
      48,
      48,
      55,
      53,
      51,
      49
    ]
  }
}") ∧ (spell (bs "XK2636115110604100")).map textOfJson = some (bs "{
  \"heartbeat\": {
    \"rtcData\": {
      \"datetime\": \"2004-06-11T11:36:26\",
      \"weekday\": \"thu\",
      \"dst\": true,
      \"clock_display\": \"twentyFourHour\",
      \"date_display\": \"monthFirst\"
    }
  }
}") := by decide +kernel

/-- Non-vacuity: what is published when zone 1 is violated; and nothing can be for a report on all
zones. -/
example : (eventDoc ⟨some (.ascii ⟨bs "ZC001900"⟩), some (.ok (.zoneChange ⟨⟨1⟩, ⟨9⟩⟩)), none,
      some (.zoneChange ⟨1⟩ ⟨2⟩)⟩).map textOfJson = some (bs "{
  \"pkt\": {
    \"ascii\": \"ZC001900\"
  },
  \"msg\": {
    \"Ok\": {
      \"zoneChange\": {
        \"zone\": 1,
        \"status\": 9
      }
    }
  },
  \"completes\": null,
  \"change\": {
    \"zoneChange\": {
      \"zone\": 1,
      \"prior\": 2
    }
  }
}") ∧ ((spell (msgText (.zoneStatusReport ⟨Vector.replicate 208 ⟨0⟩⟩))).map textOfJson) = none := by
  decide +kernel

end Elk.Props
