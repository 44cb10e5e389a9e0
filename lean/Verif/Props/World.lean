import Verif.Lemmas.World
import Verif.Props.Main
/-!
# Properties of commands that reach the bridge program through the broker (C83, C84)

Histories contain any number of runs of the program, with any configurations, and whatever other
clients of the broker post, at any time, on any topic, retained or not.
-/

namespace Elk.Props
open Elk.Spec
open scoped List

/-! ## C83: commands come from outside -/

theorem given_taken {obs : List BObs} {c : Command} (h : c ∈ asked obs) :
    ∃ p, .taken p (some c) ∈ obs := by
  unfold asked at h
  obtain ⟨o, ho, h⟩ := List.mem_filterMap.mp h
  cases o with
  | taken p c' =>
    have h : c' = some c := h
    exact ⟨p, h ▸ ho⟩
  | _ => cases h

theorem taken_mem {obs : List BObs} {p : Publish} {c} (h : .taken p c ∈ obs) : p ∈ takenUp obs := by
  unfold takenUp
  exact List.mem_filterMap.mpr ⟨_, h, rfl⟩

/-- **C83** In all runs of the program, every command handed to the panel was asked for by a message
to a command topic that another client posted, or that the broker had before, and that a bridge
running at some moment understands as asking for just this command with its configured code. -/
theorem C83_posted {render : Json → Bytes} {w0 : World} (h0 : Dawn w0) (ops : List WOp) {c : Command}
    (hc : c ∈ given (World.run render ops w0).seen) :
    ∃ m ∈ w0.site.broker ++ posted ops, CommandTopic m.topic ∧
      AskedIn render w0 ops (m.forwarded render) c := by
  have hg := world_good (render := render) h0 ops
  obtain ⟨p, hp⟩ := given_taken (hg.pend.subset (List.mem_append_left _ hc))
  obtain ⟨m, h1, h2, rfl⟩ := hg.origin p
    (List.mem_append_left _ (List.mem_append_left _ (taken_mem hp)))
  exact ⟨m, h1, h2, hg.asks _ _ hp⟩

/-- **C83** What the program publishes is never on a command topic, whatever the configuration. -/
theorem C83_own_topics {render : Json → Bytes} {w0 : World} (h0 : Dawn w0) (ops : List WOp) :
    ∀ m ∈ (World.run render ops w0).site.queue, ¬ CommandTopic m.topic := by
  have hg := world_good (render := render) h0 ops
  intro m hm
  cases hp : (World.run render ops w0).site.prog with
  | none => rw [(hg.idle hp).1] at hm; cases hm
  | some p =>
    obtain ⟨sent, hb⟩ := hg.busy p hp
    exact good_not hb m (List.mem_append_right _ hm)

/-- **C83** If other clients post nothing to command topics, the program takes up no message at all:
the broker never hands it one of its own. -/
theorem C83_no_echo {render : Json → Bytes} {w0 : World} (h0 : Dawn w0) (ops : List WOp)
    (h : ∀ m ∈ w0.site.broker ++ posted ops, ¬ CommandTopic m.topic) :
    takenUp (World.run render ops w0).seen = [] ∧ given (World.run render ops w0).seen = [] := by
  have hg := world_good (render := render) h0 ops
  constructor
  · rw [List.eq_nil_iff_forall_not_mem]
    intro p hp
    obtain ⟨m, h1, h2, _⟩ := hg.origin p (List.mem_append_left _ (List.mem_append_left _ hp))
    exact h m h1 h2
  · rw [List.eq_nil_iff_forall_not_mem]
    intro c hc
    obtain ⟨m, h1, h2, _⟩ := C83_posted h0 ops hc
    exact h m h1 h2

/-! ## C84: at most once -/

/-- The messages that a part of the commands asked for was asked by. -/
theorem asked_part {obs : List BObs} : ∀ {g : List Command}, g <+ asked obs →
    ∃ sel : List (Publish × Command), sel.map (·.1) <+ takenUp obs ∧ sel.map (·.2) = g ∧
      ∀ x ∈ sel, .taken x.1 (some x.2) ∈ obs := by
  induction obs with
  | nil =>
    intro g h
    rw [List.sublist_nil.mp h]
    exact ⟨[], List.nil_sublist _, rfl, fun x hx => by cases hx⟩
  | cons o obs ih =>
    intro g h
    have skip : g <+ asked obs → takenUp obs <+ takenUp (o :: obs) →
        ∃ sel : List (Publish × Command), sel.map (·.1) <+ takenUp (o :: obs) ∧
          sel.map (·.2) = g ∧ ∀ x ∈ sel, .taken x.1 (some x.2) ∈ o :: obs := by
      intro h1 h2
      obtain ⟨sel, h3, h4, h5⟩ := ih h1
      exact ⟨sel, h3.trans h2, h4, fun x hx => List.mem_cons_of_mem _ (h5 x hx)⟩
    rcases o with _ | _ | _ | ⟨p, _ | c⟩ | _ | _
    case taken.some =>
      have h : g <+ c :: asked obs := h
      cases h with
      | cons _ h => exact skip h (List.sublist_cons_self _ _)
      | @cons_cons l _ _ h =>
        obtain ⟨sel, h3, h4, h5⟩ := ih h
        refine ⟨(p, c) :: sel, h3.cons_cons p, by rw [List.map_cons, h4], ?_⟩
        intro x hx
        rcases List.mem_cons.mp hx with rfl | hx
        · exact List.mem_cons_self
        · exact List.mem_cons_of_mem _ (h5 x hx)
    case taken.none => exact skip h (List.sublist_cons_self _ _)
    all_goals exact skip h (List.Sublist.refl _)

/-- **C84** (partial) If no command is posted to be retained, then in all runs of the program taken
together each post leads to at most one command: the commands handed to the panel are, in order,
those that some of the posts ask for.  Missing: posts that are retained, for which this is false
(`C84_false`). -/
theorem C84_once_partial {render : Json → Bytes} {w0 : World} (h0 : Dawn w0) (ops : List WOp)
    (hk : NoneKept w0 ops) :
    ∃ sel : List (Published × Command), sel.map (·.1) <+ posted ops ∧
      sel.map (·.2) = given (World.run render ops w0).seen ∧
      ∀ x ∈ sel, AskedIn render w0 ops (x.1.forwarded render) x.2 := by
  have hg := world_good (render := render) h0 ops
  obtain ⟨sel, h1, h2, h3⟩ := asked_part ((List.sublist_append_left _ _).trans hg.pend)
  have h4 : sel.map (·.1) <+ (posted ops).map (Published.forwarded render) := by
    refine h1.trans (List.Sublist.trans ?_ (hg.once hk))
    rw [List.append_assoc]
    exact List.sublist_append_left _ _
  obtain ⟨ms, h5, h6⟩ := List.sublist_map_iff.mp h4
  have hl : ms.length = sel.length := by
    have := congrArg List.length h6
    simpa using this.symm
  refine ⟨ms.zip (sel.map (·.2)), ?_, ?_, ?_⟩
  · rw [List.map_fst_zip (by simp [hl])]
    exact h5
  · rw [List.map_snd_zip (by simp [hl])]
    exact h2
  · intro x hx
    obtain ⟨i, hi, rfl⟩ := List.mem_iff_getElem.mp hx
    have hi' : i < sel.length := by
      simp only [List.length_zip, List.length_map] at hi
      omega
    rw [List.getElem_zip, List.getElem_map]
    dsimp only
    have e : (ms[i]'(by omega)).forwarded render = sel[i].1 := by
      have : (sel.map (·.1))[i]'(by simpa using hi') =
          (ms.map (Published.forwarded render))[i]'(by simp; omega) := by
        simp only [h6]
      simpa using this.symm
    rw [e]
    exact hg.asks _ _ (h3 _ (List.getElem_mem _))

/-- **C84** (partial) Nothing posted before the program ended is carried out by a later run: after a
moment without a program, each command handed to the panel is asked for by a post made after this
moment (and by at most one command per post).  Missing: posts that are retained. -/
theorem C84_fresh_partial {render : Json → Bytes} {w0 : World} (h0 : Dawn w0) (before ops : List WOp)
    (hn : (World.run render before w0).site.prog = none) (hk : NoneKept w0 (before ++ ops)) :
    ∃ sel : List (Published × Command), sel.map (·.1) <+ posted ops ∧
      given (World.run render (before ++ ops) w0).seen =
        given (World.run render before w0).seen ++ sel.map (·.2) ∧
      ∀ x ∈ sel, AskedIn render w0 (before ++ ops) (x.1.forwarded render) x.2 := by
  have hg := world_good (render := render) h0 before
  rw [world_append]
  have hrun : ∀ ops, World.run render (before ++ ops) w0 =
      World.run render ops (World.run render before w0) := fun _ => world_append _ _ _ _
  generalize World.run render before w0 = w at *
  obtain ⟨e1, e2, e3⟩ := hg.idle hn
  let w1 : World := { w with seen := [] }
  have hw : w = w1.since w.seen := by
    show w = { w with seen := w.seen ++ [] }
    rw [List.append_nil]
  have h1 : Dawn w1 := ⟨hn, e1, e2, e3, rfl⟩
  have hk1 : NoneKept w1 ops := by
    intro m hm hc
    refine hk m ?_ hc
    rw [posted_append, ← List.append_assoc]
    rcases List.mem_append.mp hm with hm | hm
    · exact List.mem_append_left _ (hg.held m hm hc)
    · exact List.mem_append_right _ hm
  obtain ⟨sel, h2, h3, h4⟩ := C84_once_partial (render := render) h1 ops hk1
  refine ⟨sel, h2, ?_, ?_⟩
  · have e : (World.run render ops w).seen = w.seen ++ (World.run render ops w1).seen := by
      conv => lhs; rw [hw, run_since]
      rfl
    rw [e, given_append, h3]
  · intro x hx
    obtain ⟨mid, cf, b, code, h5, h6, h7⟩ := h4 x hx
    refine ⟨before ++ mid, cf, b, code, (List.prefix_append_right_inj _).mpr h5, ?_, h7⟩
    rw [hrun, hw, run_since]
    exact h6

/-- The program is started with this file, connects, and subscribes. -/
def sampleDay (file : Bytes) : List WOp :=
  (sampleLife file 0).map .site ++ [.subscribe] ++ List.replicate 7 (.site .transmit)

/-- A message is delivered and carried out, and the panel confirms. -/
def sampleWork : List WOp :=
  [.deliver, .site (.prog (.op (.tick ⟨1, 0, 0⟩ true))),
    .site (.prog (.op (.tick ⟨1, 0, 0⟩ true))),
    .site (.prog (.op (.writable (.accept 1000)))), .site (.prog (.op (.tick ⟨1, 0, 0⟩ true))),
    .site (.prog (.op (.arrive (.data (msgBytes
      (.armingStatusReport (sameReport .disarmed .readyToArm))))))),
    .site (.prog (.op (.tick ⟨1, 0, 0⟩ true)))]

/-- A command. -/
def samplePost (retain : Bool) (what : String) : WOp :=
  .post ⟨bs "elkm1/42/area/home/ha_command", retain, .text (bs what)⟩

/-- Nothing has happened yet. -/
def sampleWorld : World := ⟨sampleSite, [], [], []⟩

theorem sampleWorld_dawn : Dawn sampleWorld := ⟨rfl, rfl, rfl, rfl, rfl⟩

/-- What a command asks for: the area, and the level. -/
def briefly : Command → Option (UInt8 × ArmLevel)
  | .arm a => some (a.area.val, a.level)
  | _ => none

/-- Non-vacuity: of four commands, the first is carried out, the second is posted while the program
is not running and the third gets lost, and the fourth is carried out after a restart. -/
example :
    let ops := sampleDay sampleFile ++ [samplePost false "ARM_AWAY"] ++ sampleWork ++
      [.site .kill, samplePost false "ARM_HOME"] ++ sampleDay sampleFile ++
      [samplePost false "ARM_HOME", .lose, samplePost false "DISARM"] ++ sampleWork
    let w := World.run (fun _ => []) ops sampleWorld
    (given w.seen).map briefly = [some (1, .armedAway), some (1, .disarm)] ∧ (posted ops).length = 4 ∧
    (runningWith w.site).isSome = true := by
  decide +kernel

/-- **C84** is false of the code: a single command that was posted to be retained is carried out
again when the program is restarted.  (Here: the house is disarmed again.) -/
theorem C84_false : ∃ w0 ops m c, Dawn w0 ∧ w0.site.broker = [] ∧ posted ops = [m] ∧
    given (World.run (fun _ => []) ops w0).seen = [c, c] := by
  let ops := sampleDay sampleFile ++ [samplePost true "DISARM"] ++ sampleWork ++ [.site .kill] ++
    sampleDay sampleFile ++ sampleWork
  refine ⟨sampleWorld, ops, _, .arm ⟨⟨1⟩, .disarm, ⟨#v[48, 48, 49, 50, 51, 52]⟩⟩,
    sampleWorld_dawn, rfl, rfl, ?_⟩
  decide +kernel

end Elk.Props
