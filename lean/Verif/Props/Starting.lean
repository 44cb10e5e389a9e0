import Verif.Spec.Starting
import Verif.Spec.Queue
import Verif.Props.Desk
/-!
# C143: what the bridge has published when its start fails
-/

namespace Elk.Props
open Elk Elk.Spec

/-! ## The requests -/

theorem andThen_ok {w u : Work} (h : w.ends = .ok ()) :
    w.andThen u = ⟨w.made ++ u.made, u.ends⟩ := by
  unfold Work.andThen
  rw [h]

theorem andThen_error {w u : Work} {e : Panic} (h : w.ends = .error e) :
    w.andThen u = ⟨w.made, .error e⟩ := by
  unfold Work.andThen
  rw [h]

theorem andThen_assoc (w u t : Work) :
    (w.andThen u).andThen t = w.andThen (u.andThen t) := by
  cases hw : w.ends with
  | error e => rw [andThen_error hw, andThen_error hw, andThen_error rfl]
  | ok x =>
    rw [andThen_ok hw, andThen_ok hw]
    cases hu : u.ends with
    | error e => rw [andThen_error (w := ⟨_, _⟩) rfl, andThen_error hu]
    | ok y => rw [andThen_ok (w := ⟨_, _⟩) rfl, andThen_ok hu, List.append_assoc]

/-- The work does these steps, whatever comes after it. -/
def Performs (cfg : Cfg) (v : View) (w : Work) (l : List StartStep) : Prop :=
  ∀ (u : Work) (l' : List StartStep), Unfolds cfg v l' u.made u.ends.isOk →
    Unfolds cfg v (l ++ l') (w.andThen u).made (w.andThen u).ends.isOk

theorem performs_one {cfg : Cfg} {v : View} {w : Work} {s : StartStep}
    (h : (Passes cfg s ∧ Asking cfg v s w.made ∧ w.ends = .ok ()) ∨
      (¬ Passes cfg s ∧ w.made = [] ∧ ∃ e, w.ends = .error e)) : Performs cfg v w [s] := by
  intro u l' hu
  rcases h with ⟨h1, h2, h3⟩ | ⟨h1, h2, e, h3⟩
  · rw [andThen_ok h3]
    exact .goes h1 h2 hu
  · rw [andThen_error h3, h2]
    exact .fails h1

theorem performs_nil {cfg : Cfg} {v : View} : Performs cfg v ⟨[], .ok ()⟩ [] := by
  intro u l' hu
  rw [andThen_ok rfl]
  exact hu

theorem performs_append {cfg : Cfg} {v : View} {w u : Work} {l l' : List StartStep}
    (h : Performs cfg v w l) (h' : Performs cfg v u l') : Performs cfg v (w.andThen u) (l ++ l') := by
  intro t l'' ht
  rw [andThen_assoc, List.append_assoc]
  exact h _ _ (h' _ _ ht)

theorem performs_each {cfg : Cfg} {v : View} {α : Type} {f : α → P (List Published)}
    {g : α → StartStep} (h : ∀ a, Performs cfg v (Work.publishing (f a)) [g a]) (l : List α) :
    Performs cfg v (Work.each f l) (l.map g) := by
  induction l with
  | nil => exact performs_nil
  | cons a l ih => exact performs_append (l := [g a]) (h a) ih

/-- Something that publishes one message. -/
theorem performs_publish {cfg : Cfg} {v : View} {x : P (List Published)} {s : StartStep}
    (h : ∀ out, x = .ok out ↔ Passes cfg s ∧ ∃ m, out = [m] ∧ Asking cfg v s [.publish m])
    (hm : Passes cfg s → ∃ m, Asking cfg v s [.publish m]) :
    Performs cfg v (Work.publishing x) [s] := by
  apply performs_one
  cases x with
  | ok out =>
    obtain ⟨a, m, rfl, b⟩ := (h out).mp rfl
    exact .inl ⟨a, b, rfl⟩
  | error e =>
    refine .inr ⟨?_, rfl, e, rfl⟩
    intro hp
    obtain ⟨m, hm⟩ := hm hp
    cases (h [m]).mpr ⟨hp, m, rfl, hm⟩

theorem areaDocTopic_noWildcard {cfg : Cfg} {ha : Bytes} (v : UInt8) :
    NoWildcard (areaDiscoveryTopic ha (areaUniqueId cfg.elk.serialNumber v)) ↔
      NoWildcard ha ∧ NoWildcard cfg.elk.serialNumber := by
  have lit : NoWildcard (bs "/alarm_control_panel/") ∧ NoWildcard (bs "/config") ∧
      NoWildcard (bs "elk-") ∧ NoWildcard (bs "-area-") := by
    unfold NoWildcard; decide
  unfold areaDiscoveryTopic areaUniqueId
  simp only [noWildcard_append, lit, decStr_noWildcard, and_true, true_and]

theorem zoneDocTopic_noWildcard {cfg : Cfg} {ha : Bytes} (v : UInt8) :
    NoWildcard (zoneDiscoveryTopic ha (zoneUniqueId cfg.elk.serialNumber v)) ↔
      NoWildcard ha ∧ NoWildcard cfg.elk.serialNumber := by
  have lit : NoWildcard (bs "/binary_sensor/") ∧ NoWildcard (bs "/config") ∧
      NoWildcard (bs "elk-") ∧ NoWildcard (bs "-zone-") := by
    unfold NoWildcard; decide
  unfold zoneDiscoveryTopic zoneUniqueId
  simp only [noWildcard_append, lit, decStr_noWildcard, and_true, true_and]

theorem areaDoc_eq (cfg : Cfg) (ha : Bytes) (a : UInt8 × AreaCfg) : areaDoc cfg ha a =
    ⟨areaDiscoveryTopic ha (areaUniqueId cfg.elk.serialNumber a.1), true,
      .json (alarmPanelConfig cfg.prefix cfg.elk.serialNumber a.1 a.2)⟩ := rfl

theorem zoneDoc_eq (cfg : Cfg) (ha : Bytes) (a : UInt8 × ZoneCfg) : zoneDoc cfg ha a =
    ⟨zoneDiscoveryTopic ha (zoneUniqueId cfg.elk.serialNumber a.1), true,
      .json (binarySensorConfig cfg.prefix cfg.elk.serialNumber a.1 a.2)⟩ := rfl

theorem performs_discovery {cfg : Cfg} {v : View} : Performs cfg v (Work.discovery cfg)
    (match cfg.mqtt.haDiscoveryPrefix with
    | some ha => cfg.elk.areas.map (.areaDoc ha) ++ cfg.elk.zones.map (.zoneDoc ha)
    | none => []) := by
  unfold Work.discovery
  cases cfg.mqtt.haDiscoveryPrefix with
  | some ha =>
    dsimp only
    unfold Work.haDiscovery
    refine performs_append (performs_each (fun a => ?_) _) (performs_each (fun a => ?_) _)
    · refine performs_publish (fun out => ?_) (fun _ => ⟨_, .areaDoc⟩)
      rw [publish_ok, areaDocTopic_noWildcard]
      refine and_congr Iff.rfl ⟨?_, ?_⟩
      · rintro rfl; exact ⟨_, rfl, .areaDoc⟩
      · rintro ⟨m, rfl, hm⟩; cases hm; rfl
    · refine performs_publish (fun out => ?_) (fun _ => ⟨_, .zoneDoc⟩)
      rw [publish_ok, zoneDocTopic_noWildcard]
      refine and_congr Iff.rfl ⟨?_, ?_⟩
      · rintro rfl; exact ⟨_, rfl, .zoneDoc⟩
      · rintro ⟨m, rfl, hm⟩; cases hm; rfl
  | none => exact performs_nil

theorem performs_areas {cfg : Cfg} {v : View} {p : Panel} (hl : Looks p v) :
    Performs cfg v (Work.areaStates p cfg) (cfg.elk.areas.map .area) := by
  refine performs_each (fun a => ?_) _
  have line : ∀ i : Fin 8, a.1.toNat = i.val + 1 → AreaLine cfg.prefix v.shown a
      ⟨areaStateTopic cfg.prefix a.2.name, true, .text (areaText v.shown i)⟩ := by
    intro i hi
    obtain ⟨t, ht, hs⟩ := areaText_shows v.shown i
    rw [ht]
    exact .state (hi := i.isLt) hi hs
  refine performs_publish (fun out => ?_) ?_
  · rw [publishAreaState_ok hl.shown]
    constructor
    · rintro ⟨i, h1, h2, rfl⟩
      exact ⟨⟨⟨by omega, by omega⟩, areaTopic_noWildcard.mp h2⟩, _, rfl, .area (line i h1)⟩
    · rintro ⟨⟨h1, h2⟩, m, rfl, hm⟩
      cases hm with
      | area hm =>
        have hi : a.1.toNat = (⟨a.1.toNat - 1, by omega⟩ : Fin 8).val + 1 := by simp; omega
        refine ⟨_, hi, areaTopic_noWildcard.mpr h2, ?_⟩
        rw [areaLine_one a _ _ hm (line _ hi)]
  · rintro ⟨h1, h2⟩
    exact ⟨_, .area (line ⟨a.1.toNat - 1, by omega⟩ (by simp; omega))⟩

theorem performs_zones {cfg : Cfg} {v : View} {p : Panel} (hl : Looks p v) (hw : WfView p) :
    Performs cfg v (Work.zoneStates p cfg) (cfg.elk.zones.map .zone) := by
  refine performs_each (fun a => ?_) _
  have hz := hl.zones
  have line : ∀ i : Fin 208, a.1.toNat = i.val + 1 → ZoneLine cfg.prefix v.zones a
      ⟨zoneStateTopic cfg.prefix a.2.name, true, .text (bs (zoneText v.zones.zones[i].val.toNat))⟩ := by
    intro i hi
    exact .state (hi := i.isLt) hi
  refine performs_publish (fun out => ?_) ?_
  · simp only [P_bind_ok, unwrapR_ok, tryFrom_ok]
    constructor
    · rintro ⟨l, ⟨⟨h1, h2⟩, rfl⟩, h3⟩
      have hi : a.1.toNat = (⟨a.1.toNat - 1, by omega⟩ : Fin 208).val + 1 := by simp; omega
      rw [publishZoneState_ok hz (hw _ hz) hi] at h3
      exact ⟨⟨⟨h1, h2⟩, zoneTopic_noWildcard.mp h3.1⟩, _, h3.2, .zone (line _ hi)⟩
    · rintro ⟨⟨h1, h2⟩, m, rfl, hm⟩
      have hi : a.1.toNat = (⟨a.1.toNat - 1, by omega⟩ : Fin 208).val + 1 := by simp; omega
      refine ⟨⟨a.1⟩, ⟨h1, rfl⟩, (publishZoneState_ok hz (hw _ hz) hi).mpr
        ⟨zoneTopic_noWildcard.mpr h2, ?_⟩⟩
      cases hm with
      | zone hm => rw [zoneLine_one a _ _ hm (line _ hi)]
  · rintro ⟨h1, h2⟩
    exact ⟨_, .zone (line ⟨a.1.toNat - 1, by omega⟩ (by simp; omega))⟩

theorem performs_start {cfg : Cfg} {v : View} {p : Panel} (hl : Looks p v) (hw : WfView p) :
    Unfolds cfg v (startPlan cfg) (Work.start cfg p).made (Work.start cfg p).ends.isOk := by
  have hcode : Performs cfg v (Work.quietly (unwrapR (ArmCode.tryFromNum cfg.elk.code))) [.code] := by
    apply performs_one
    have hn := (C25_number cfg.elk.code).2.1
    cases hx : unwrapR (ArmCode.tryFromNum cfg.elk.code) with
    | ok c => exact .inl ⟨hn.mp ⟨c, unwrapR_ok.mp hx⟩, .code, rfl⟩
    | error e =>
      refine .inr ⟨?_, rfl, e, rfl⟩
      intro hp
      obtain ⟨c, hc⟩ := hn.mpr hp
      rw [unwrapR_ok.mpr hc] at hx
      cases hx
  have hsub : Performs cfg v (Work.subscription cfg) [.subscribe] := by
    apply performs_one
    unfold Work.subscription
    cases hx : subscribeMany (cfg.elk.areas.map fun a => areaCommandTopic cfg.prefix a.2.name) with
    | ok t =>
      obtain ⟨a, rfl⟩ := subscribeMany_ok.mp hx
      exact .inl ⟨(fun h => a (by rw [h]; rfl)), .subscribe, rfl⟩
    | error e =>
      refine .inr ⟨?_, rfl, e, rfl⟩
      intro hp
      rw [subscribeMany_ok.mpr ⟨(fun h => hp (List.map_eq_nil_iff.mp h)), rfl⟩] at hx
      cases hx
  have hon : Performs cfg v (Work.online cfg) [.online] := by
    refine performs_publish (fun out => ?_) (fun _ => ⟨_, .online⟩)
    rw [publish_ok, availability_noWildcard]
    refine and_congr Iff.rfl ⟨?_, ?_⟩
    · rintro rfl; exact ⟨_, rfl, .online⟩
    · rintro ⟨m, rfl, hm⟩; cases hm; rfl
  have hlast : Unfolds cfg v [.online] (Work.online cfg).made (Work.online cfg).ends.isOk := by
    have := hon ⟨[], .ok ()⟩ [] .done
    cases hx : (Work.online cfg).ends with
    | ok u => rw [andThen_ok hx] at this; simpa only [List.append_nil] using this
    | error e => rw [andThen_error hx] at this; exact this
  exact hcode _ _ (performs_discovery _ _ (performs_areas hl _ _ (performs_zones hl hw _ _
    (hsub _ _ hlast))))

/-! ## The same start as `Bridge.start` -/

/-- The same publications and the same end. -/
def Matches (w : Work) (x : P (List Published)) : Prop :=
  (∀ l, x = .ok l → w = ⟨l.map .publish, .ok ()⟩) ∧ ∀ e, x = .error e → w.ends = .error e

theorem matches_publishing (x : P (List Published)) : Matches (Work.publishing x) x := by
  constructor <;> (rintro a rfl; rfl)

theorem matches_bind {w u : Work} {x y : P (List Published)} (h : Matches w x) (h' : Matches u y) :
    Matches (w.andThen u) (do let a ← x; let b ← y; .ok (a ++ b)) := by
  cases x with
  | error e =>
    refine ⟨fun l hl => (nomatch hl), fun e' he => ?_⟩
    cases he
    rw [andThen_error (h.2 _ rfl)]
  | ok a =>
    obtain rfl := h.1 _ rfl
    rw [andThen_ok rfl]
    cases y with
    | error e =>
      refine ⟨fun l hl => (nomatch hl), fun e' he => ?_⟩
      cases he
      exact h'.2 _ rfl
    | ok b =>
      obtain rfl := h'.1 _ rfl
      refine ⟨fun l hl => ?_, fun e' he => (nomatch he)⟩
      cases hl
      simp

theorem matches_each {α : Type} (f : α → P (List Published)) (l : List α) :
    Matches (Work.each f l) (publishEach f l) := by
  induction l with
  | nil => exact ⟨fun l hl => (by cases hl; rfl), fun e he => (nomatch he)⟩
  | cons a l ih => exact matches_bind (matches_publishing _) ih

theorem matches_discovery (cfg : Cfg) : Matches (Work.discovery cfg) (publishDiscovery cfg) := by
  unfold Work.discovery publishDiscovery
  cases cfg.mqtt.haDiscoveryPrefix with
  | some ha => exact matches_bind (matches_each _ _) (matches_each _ _)
  | none => exact ⟨fun l hl => (by cases hl; rfl), fun e he => (nomatch he)⟩

/-- A start that fails is one for which `Bridge.start` fails, in the same way; and a start that does
not fail asks the MQTT client for what `Bridge.start` publishes and subscribes to. -/
theorem C143_start (cfg : Cfg) (p : Panel) :
    (∀ e, Bridge.start cfg p = .error e ↔ (Work.start cfg p).ends = .error e) ∧
    ∀ b, Bridge.start cfg p = .ok b → Work.start cfg p =
      ⟨b.log.dropLast.map .publish ++ .subscribe b.subscribed ::
        (b.log.drop (b.log.length - 1)).map .publish, .ok ()⟩ := by
  suffices h : (∀ e, Bridge.start cfg p = .error e → (Work.start cfg p).ends = .error e) ∧
      ∀ b, Bridge.start cfg p = .ok b → Work.start cfg p =
        ⟨b.log.dropLast.map .publish ++ .subscribe b.subscribed ::
          (b.log.drop (b.log.length - 1)).map .publish, .ok ()⟩ by
    refine ⟨fun e => ⟨h.1 e, fun he => ?_⟩, h.2⟩
    cases hb : Bridge.start cfg p with
    | error e' => rw [h.1 _ hb] at he; cases he; rfl
    | ok b => rw [h.2 _ hb] at he; cases he
  unfold Work.start Bridge.start
  cases hc : unwrapR (ArmCode.tryFromNum cfg.elk.code) with
  | error e =>
    refine ⟨fun e' he => ?_, fun b hb => (nomatch hb)⟩
    cases he
    rw [andThen_error rfl]
  | ok code =>
  have hd := matches_discovery cfg
  have ha : Matches (Work.areaStates p cfg) (publishAreaStates p cfg.prefix cfg.elk.areas) :=
    matches_each _ _
  have hz : Matches (Work.zoneStates p cfg) (publishZoneStates p cfg.prefix cfg.elk.zones) :=
    matches_each _ _
  have ho : Matches (Work.online cfg)
      (publish (availabilityTopic cfg.prefix) true (.text (bs "online"))) := matches_publishing _
  rw [andThen_ok (w := Work.quietly (.ok code)) rfl]
  cases hdx : publishDiscovery cfg with
  | error e =>
    refine ⟨fun e' he => ?_, fun b hb => (nomatch hb)⟩
    cases he
    rw [andThen_error (hd.2 _ hdx)]
  | ok discovery =>
  rw [hd.1 _ hdx, andThen_ok (w := ⟨_, .ok ()⟩) rfl]
  cases hax : publishAreaStates p cfg.prefix cfg.elk.areas with
  | error e =>
    refine ⟨fun e' he => ?_, fun b hb => (nomatch hb)⟩
    cases he
    rw [andThen_error (ha.2 _ hax)]
  | ok areas =>
  rw [ha.1 _ hax, andThen_ok (w := ⟨areas.map _, .ok ()⟩) rfl]
  cases hzx : publishZoneStates p cfg.prefix cfg.elk.zones with
  | error e =>
    refine ⟨fun e' he => ?_, fun b hb => (nomatch hb)⟩
    cases he
    rw [andThen_error (hz.2 _ hzx)]
  | ok zones =>
  rw [hz.1 _ hzx, andThen_ok (w := ⟨zones.map _, .ok ()⟩) rfl]
  unfold Work.subscription
  cases subscribeMany (cfg.elk.areas.map fun a => areaCommandTopic cfg.prefix a.2.name) with
  | error e =>
    refine ⟨fun e' he => ?_, fun b hb => (nomatch hb)⟩
    cases he
    rw [andThen_error rfl]
  | ok topics =>
  rw [andThen_ok (w := ⟨[.subscribe topics], .ok ()⟩) rfl]
  cases hx : publish (availabilityTopic cfg.prefix) true (.text (bs "online")) with
  | error e =>
    rw [hx] at ho
    refine ⟨fun e' he => ?_, fun b hb => (nomatch hb)⟩
    cases he
    exact ho.2 _ rfl
  | ok online =>
  rw [hx] at ho
  refine ⟨fun e' he => (nomatch he), fun b hb => ?_⟩
  obtain ⟨_, rfl⟩ := publish_ok.mp hx
  cases hb
  rw [ho.1 _ rfl]
  have hdrop : ∀ (l : List Published) m, (l ++ [m]).drop ((l ++ [m]).length - 1) = [m] := by
    intro l m
    rw [List.length_append]
    exact List.drop_left
  dsimp only
  rw [hdrop, List.dropLast_concat]
  simp [Work.quietly]

/-! ## The plan -/

theorem asking_one {cfg : Cfg} {v : View} {s : StartStep} {x y : List ClientReq}
    (hx : Asking cfg v s x) (hy : Asking cfg v s y) : x = y := by
  cases hx <;> cases hy
  any_goals rfl
  · rename_i h _ h'
    rw [areaLine_one _ _ _ h h']
  · rename_i h _ h'
    rw [zoneLine_one _ _ _ h h']

theorem unfolds_one {cfg : Cfg} {v : View} {l : List StartStep} {x y : List ClientReq} {o o' : Bool}
    (hx : Unfolds cfg v l x o) (hy : Unfolds cfg v l y o') : x = y ∧ o = o' := by
  induction hx generalizing y o' with
  | done => cases hy; exact ⟨rfl, rfl⟩
  | fails h =>
    cases hy with
    | fails _ => exact ⟨rfl, rfl⟩
    | goes h' _ _ => exact absurd h' h
  | goes h ha _ ih =>
    cases hy with
    | fails h' => exact absurd h h'
    | goes _ ha' hu =>
      obtain ⟨rfl, rfl⟩ := ih hu
      rw [asking_one ha ha']
      exact ⟨rfl, rfl⟩

theorem unfolds_append {cfg : Cfg} {v : View} {l l' : List StartStep} {rs : List ClientReq} {o : Bool}
    (h : Unfolds cfg v (l ++ l') rs o) : (o = false ∧ Unfolds cfg v l rs false) ∨
      ∃ a b, rs = a ++ b ∧ Unfolds cfg v l a true ∧ Unfolds cfg v l' b o := by
  induction l generalizing rs with
  | nil => exact .inr ⟨[], rs, rfl, .done, h⟩
  | cons s l ih =>
    cases h with
    | fails h => exact .inl ⟨rfl, .fails h⟩
    | goes h ha hu =>
      rcases ih hu with ⟨h1, h2⟩ | ⟨a, b, rfl, h2, h3⟩
      · exact .inl ⟨h1, .goes h ha h2⟩
      · exact .inr ⟨_, b, (List.append_assoc ..).symm, .goes h ha h2, h3⟩

theorem unfolds_passes {cfg : Cfg} {v : View} {l : List StartStep} {rs : List ClientReq}
    (h : Unfolds cfg v l rs true) : ∀ s ∈ l, Passes cfg s := by
  induction l generalizing rs with
  | nil => exact fun s hs => (by cases hs)
  | cons s l ih =>
    cases h with
    | goes h ha hu =>
      intro t ht
      rcases List.mem_cons.mp ht with rfl | ht
      · exact h
      · exact ih hu t ht

theorem unfolds_mem {cfg : Cfg} {v : View} {l : List StartStep} {rs : List ClientReq} {o : Bool}
    (h : Unfolds cfg v l rs o) {r : ClientReq} (hr : r ∈ rs) :
    ∃ s ∈ l, ∃ x, Asking cfg v s x ∧ r ∈ x := by
  induction h with
  | done => cases hr
  | fails _ => cases hr
  | goes h ha _ ih =>
    rcases List.mem_append.mp hr with hr | hr
    · exact ⟨_, by simp, _, ha, hr⟩
    · obtain ⟨s, hs, x⟩ := ih hr
      exact ⟨s, by simp [hs], x⟩

/-- The bridge that has connected to the panel asks the MQTT client for the things that `startPlan`
lists, one after the other, up to the first that fails: a code that has more than six digits, a
wildcard in a topic to publish to, an area or zone that cannot be, no area to subscribe for.  The
start fails if one of them does, and nothing else makes it fail.  What is asked for in all is
determined. -/
theorem C143_plan {cfg : Cfg} {p : Panel} (hc : Connected p) (hw : WfView p) :
    ∃ v, Looks p v ∧
      Unfolds cfg v (startPlan cfg) (Work.start cfg p).made (Work.start cfg p).ends.isOk ∧
      ∀ rs ok, Unfolds cfg v (startPlan cfg) rs ok →
        rs = (Work.start cfg p).made ∧ ok = (Work.start cfg p).ends.isOk := by
  obtain ⟨v, hl⟩ := looks_of_good (connected_good hc)
  exact ⟨v, hl, performs_start hl hw, fun rs ok h => unfolds_one h (performs_start hl hw)⟩

/-- The documents for discovery. -/
def docSteps (cfg : Cfg) : List StartStep :=
  match cfg.mqtt.haDiscoveryPrefix with
  | some ha => cfg.elk.areas.map (.areaDoc ha) ++ cfg.elk.zones.map (.zoneDoc ha)
  | none => []

/-- Everything before the subscription. -/
def frontSteps (cfg : Cfg) : List StartStep :=
  .code :: (docSteps cfg ++ (cfg.elk.areas.map .area ++ cfg.elk.zones.map .zone))

theorem startPlan_front (cfg : Cfg) : startPlan cfg = frontSteps cfg ++ [.subscribe, .online] := by
  unfold frontSteps startPlan docSteps
  simp only [List.cons_append, List.append_assoc]
  rfl

theorem front_not (cfg : Cfg) : ∀ s ∈ frontSteps cfg, s ≠ .subscribe ∧ s ≠ .online := by
  intro s hs
  rcases List.mem_cons.mp hs with rfl | hs
  · simp
  rcases List.mem_append.mp hs with hs | hs
  · unfold docSteps at hs
    split at hs
    · rcases List.mem_append.mp hs with hs | hs <;> obtain ⟨a, _, rfl⟩ := List.mem_map.mp hs <;> simp
    · cases hs
  · rcases List.mem_append.mp hs with hs | hs <;> obtain ⟨a, _, rfl⟩ := List.mem_map.mp hs <;> simp

/-- If the start fails, the bridge has not subscribed and has not said that it is online, nor asked
the client to: so that nobody is told that it is available, and no command reaches it. -/
theorem C143_unannounced {cfg : Cfg} {p : Panel} (hc : Connected p) (hw : WfView p) {e : Panic}
    (he : (Work.start cfg p).ends = .error e) :
    (∀ t, .subscribe t ∉ (Work.start cfg p).made) ∧
    ∀ t, .publish ⟨t, true, .text (bs "online")⟩ ∉ (Work.start cfg p).made := by
  obtain ⟨v, hl, hu, -⟩ := C143_plan (cfg := cfg) hc hw
  rw [he] at hu
  generalize (Work.start cfg p).made = rs at hu ⊢
  rw [startPlan_front] at hu
  change Unfolds cfg v _ rs false at hu
  have hfront := front_not cfg
  have hsay : ∀ s x, Asking cfg v s x → s ≠ .subscribe → s ≠ .online →
      (∀ t, .subscribe t ∉ x) ∧ ∀ t, .publish ⟨t, true, .text (bs "online")⟩ ∉ x := by
    intro s x ha h1 h2
    cases ha with
    | code => simp
    | areaDoc => simp [areaDoc]
    | zoneDoc => simp [zoneDoc]
    | area h =>
      cases h with
      | state _ hs =>
        refine ⟨by simp, fun t ht => ?_⟩
        simp only [List.mem_singleton, ClientReq.publish.injEq, Published.mk.injEq,
          Payload.text.injEq, true_and] at ht
        have ht := ht.2
        revert ht
        cases hs with
        | triggered => decide
        | pending => decide
        | arming => decide
        | mode =>
          rename_i i hi _ _ _ _
          have : ∀ m, bs "online" ≠ bs (modeText m) := by intro m; cases m <;> decide
          exact this _
    | zone h =>
      cases h with
      | state _ =>
        refine ⟨by simp, fun t ht => ?_⟩
        simp only [List.mem_singleton, ClientReq.publish.injEq, Published.mk.injEq,
          Payload.text.injEq, true_and] at ht
        have ht := ht.2
        revert ht
        unfold zoneText
        split
        · decide
        · split <;> decide
    | subscribe => exact absurd rfl h1
    | online => exact absurd rfl h2
  have key : ∀ {l rs o}, Unfolds cfg v l rs o → (∀ s ∈ l, s ≠ .subscribe ∧ s ≠ .online) →
      (∀ t, .subscribe t ∉ rs) ∧ ∀ t, .publish ⟨t, true, .text (bs "online")⟩ ∉ rs := by
    intro l rs o h hl
    constructor
    · intro t ht
      obtain ⟨s, hs, x, ha, hx⟩ := unfolds_mem h ht
      exact (hsay s x ha (hl s hs).1 (hl s hs).2).1 t hx
    · intro t ht
      obtain ⟨s, hs, x, ha, hx⟩ := unfolds_mem h ht
      exact (hsay s x ha (hl s hs).1 (hl s hs).2).2 t hx
  rcases unfolds_append hu with ⟨-, h⟩ | ⟨a, b, rfl, h, h'⟩
  · exact key h hfront
  · cases h' with
    | fails hn =>
      rw [List.append_nil]
      exact key h hfront
    | goes hp _ h' =>
      exfalso
      obtain ⟨x, l, hx⟩ := List.exists_cons_of_ne_nil hp
      have hpre : NoWildcard cfg.prefix := by
        have := unfolds_passes h (.area x) (by
          unfold frontSteps
          simp [hx])
        exact this.2.1
      cases h' with
      | fails hn => exact hn hpre
      | goes _ _ h' => cases h'

/-! ## The queue -/

theorem startup_run_append (a b : List StartupOp) (s : Startup) :
    Startup.run (a ++ b) s = Startup.run b (Startup.run a s) := by
  simp [Startup.run]

/-- What holds while the start is under way, if it will fail. -/
structure Failing (made : List ClientReq) (s : Startup) : Prop where
  fails : ∃ e, s.ends = .error e
  room : s.queue.length ≤ 10
  going : s.over = false → s.sent ++ (s.queue ++ s.todo) = made ∧
    (s.todo ≠ [] ∧ 10 < made.length ∨ s.sent = [] ∧ s.queue = [])
  gone : s.over = true → s.queue = [] ∧ ∃ k, s.sent = made.take k ∧ k ≤ made.length ∧
    made.length - 10 ≤ k ∧ (made.length ≤ 10 → k = 0) ∧ (10 < made.length → k < made.length)

theorem failing_begin {w : Work} {e : Panic} (h : w.ends = .error e) :
    Failing w.made (Startup.begin w) :=
  ⟨⟨e, h⟩, by simp [Startup.begin], fun _ => ⟨by simp [Startup.begin], .inr ⟨rfl, rfl⟩⟩,
    fun h => (nomatch h)⟩

theorem failing_step {made : List ClientReq} {s : Startup} (h : Failing made s) (op : StartupOp) :
    Failing made (s.step op) := by
  obtain ⟨todo, ends, queue, sent, over⟩ := s
  obtain ⟨⟨e, rfl⟩, h2, h3, h4⟩ := h
  dsimp only at h2 h3 h4
  cases op with
  | poll =>
    unfold Startup.step
    dsimp only
    cases over with
    | true => exact ⟨⟨e, rfl⟩, h2, h3, h4⟩
    | false =>
      obtain ⟨a, b⟩ := h3 rfl
      have hn := congrArg List.length a
      simp only [List.length_append] at hn
      simp only [Bool.false_eq_true, if_false]
      split
      · rename_i hle
        refine ⟨⟨e, rfl⟩, by simp, fun h => (nomatch h), fun _ => ⟨rfl, sent.length, ?_, ?_, ?_, ?_, ?_⟩⟩
        · rw [← a]; simp
        · omega
        · omega
        · intro hm
          rcases b with ⟨_, b⟩ | ⟨rfl, _⟩
          · omega
          · rfl
        · intro hm
          rcases b with ⟨b, _⟩ | ⟨rfl, rfl⟩
          · have := List.length_pos_iff.mpr b
            omega
          · simp; omega
      · rename_i hgt
        refine ⟨⟨e, rfl⟩, ?_, fun _ => ⟨?_, .inl ⟨?_, ?_⟩⟩, fun h => (nomatch h)⟩
        · simp; omega
        · rw [List.append_assoc, List.take_append_drop]; exact a
        · intro hd
          rw [List.drop_eq_nil_iff] at hd
          omega
        · rcases b with ⟨_, b⟩ | ⟨rfl, rfl⟩
          · exact b
          · simp at hn hgt; omega
  | transmit =>
    unfold Startup.step
    dsimp only
    cases queue with
    | nil => exact ⟨⟨e, rfl⟩, h2, h3, h4⟩
    | cons r q =>
      refine ⟨⟨e, rfl⟩, by simp at h2 ⊢; omega, fun ho => ?_, fun ho => ?_⟩
      · obtain ⟨a, b⟩ := h3 ho
        refine ⟨by simpa using a, ?_⟩
        rcases b with b | ⟨_, b⟩
        · exact .inl b
        · cases b
      · exact nomatch (h4 ho).1

theorem failing_run {made : List ClientReq} (ops : List StartupOp) : ∀ {s : Startup},
    Failing made s → Failing made (Startup.run ops s) := by
  induction ops with
  | nil => exact fun h => h
  | cons op ops ih => exact fun h => ih (failing_step h op)

/-- When a start has failed, a first part of the requests it made was transmitted, and the rest never
is: none, if it made at most ten of them; and otherwise all but the last ten or fewer. -/
theorem C143_lost {w : Work} {e : Panic} (he : w.ends = .error e) (ops : List StartupOp) :
    let s := Startup.run ops (Startup.begin w)
    s.sent <+: w.made ∧ s.queue.length ≤ 10 ∧
      (s.over = true → s.queue = [] ∧ ∃ k, CanBeOut w.made.length k ∧ s.sent = w.made.take k) := by
  intro s
  obtain ⟨_, h2, h3, h4⟩ := failing_run ops (failing_begin he)
  refine ⟨?_, h2, fun ho => ?_⟩
  · cases ho : s.over with
    | false => exact ⟨_, (h3 ho).1⟩
    | true =>
      obtain ⟨_, k, hk, _⟩ := h4 ho
      change s.sent = _ at hk
      rw [hk]
      exact List.take_prefix _ _
  · obtain ⟨hq, k, hk, _, a, b, c⟩ := h4 ho
    exact ⟨hq, k, ⟨b, fun h => ⟨a, c h⟩⟩, hk⟩

theorem run_transmits (j : Nat) : ∀ {s : Startup}, j ≤ s.queue.length →
    Startup.run (List.replicate j .transmit) s =
      { s with queue := s.queue.drop j, sent := s.sent ++ s.queue.take j } := by
  induction j with
  | zero => intro s _; simp [Startup.run]
  | succ j ih =>
    intro s h
    obtain ⟨todo, ends, queue, sent, over⟩ := s
    cases queue with
    | nil => simp at h
    | cons r q =>
      have : Startup.run (List.replicate (j + 1) .transmit) ⟨todo, ends, r :: q, sent, over⟩ =
          Startup.run (List.replicate j .transmit) ⟨todo, ends, q, sent ++ [r], over⟩ := rfl
      rw [this, ih (by simpa using h)]
      simp

theorem run_fills {made : List ClientReq} {e : Panic} (h : 10 < made.length) (i : Nat)
    (hi : i ≤ made.length - 11) : ∃ ops, Startup.run ops ⟨made, .error e, [], [], false⟩ =
      ⟨made.drop (10 + i), .error e, (made.drop i).take 10, made.take i, false⟩ := by
  induction i with
  | zero =>
    refine ⟨[.poll], ?_⟩
    simp only [Startup.run, List.foldl, Startup.step, Bool.false_eq_true, if_false]
    rw [if_neg (by simp; omega)]
    simp
  | succ i ih =>
    obtain ⟨ops, ih⟩ := ih (by omega)
    refine ⟨ops ++ [.transmit, .poll], ?_⟩
    rw [startup_run_append, ih]
    have hd : made.drop i = made[i] :: made.drop (i + 1) := List.drop_eq_getElem_cons (by omega)
    have ht : made.drop (10 + i) = made[10 + i] :: made.drop (10 + (i + 1)) :=
      List.drop_eq_getElem_cons (by omega)
    simp only [Startup.run, List.foldl, hd, List.take_succ_cons, Startup.step, Bool.false_eq_true,
      if_false]
    have hl : ((made.drop (i + 1)).take 9).length = 9 := by simp; omega
    rw [if_neg (by rw [hl, List.length_drop]; omega), hl, ht]
    simp only [Nat.reduceSub, List.drop_succ_cons, List.drop_zero, List.take_succ_cons, List.take_zero,
      Startup.mk.injEq, true_and, and_true]
    constructor
    · have : (made.drop (i + 1)).take 10 = (made.drop (i + 1)).take 9 ++ [made[10 + i]] := by
        rw [List.take_succ, List.getElem?_drop, show i + 1 + 9 = 10 + i by omega,
          List.getElem?_eq_getElem (by omega)]
        rfl
      rw [this]
    · rw [List.take_succ, List.getElem?_eq_getElem (by omega)]
      rfl

/-- Each of these numbers is possible. -/
theorem C143_possible {w : Work} {e : Panic} (he : w.ends = .error e) {k : Nat}
    (hk : CanBeOut w.made.length k) : ∃ ops, (Startup.run ops (Startup.begin w)).over = true ∧
      (Startup.run ops (Startup.begin w)).sent = w.made.take k := by
  obtain ⟨made, ends⟩ := w
  cases he
  dsimp only at hk ⊢
  by_cases hn : 10 < made.length
  · obtain ⟨h1, h2⟩ := hk.2 hn
    obtain ⟨ops, h⟩ := run_fills (e := e) hn (made.length - 11) (by omega)
    refine ⟨ops ++ (List.replicate (k - (made.length - 11)) .transmit ++ [.poll]), ?_⟩
    rw [startup_run_append, startup_run_append]
    have hb : Startup.begin ⟨made, .error e⟩ = ⟨made, .error e, [], [], false⟩ := rfl
    rw [hb, h, run_transmits _ (by simp; omega)]
    simp only [Startup.run, List.foldl, Startup.step, Bool.false_eq_true, if_false]
    rw [if_pos (by simp; omega)]
    refine ⟨rfl, ?_⟩
    dsimp only
    rw [List.take_take, Nat.min_eq_left (by omega)]
    have := List.take_add (l := made) (i := made.length - 11) (j := k - (made.length - 11))
    rw [← this]
    congr 1
    omega
  · obtain rfl := hk.1 (by omega)
    refine ⟨[.poll], ?_⟩
    simp only [Startup.run, List.foldl, Startup.step, Startup.begin, Bool.false_eq_true, if_false]
    have hle : made.length ≤ 10 := by omega
    simp [hle]

/-- What holds if it will not fail. -/
structure Succeeding (made : List ClientReq) (s : Startup) : Prop where
  ends : s.ends = .ok ()
  room : s.queue.length ≤ 10
  all : s.sent ++ (s.queue ++ s.todo) = made
  gone : s.over = true → s.todo = []

theorem succeeding_begin {w : Work} (h : w.ends = .ok ()) : Succeeding w.made (Startup.begin w) :=
  ⟨h, by simp [Startup.begin], by simp [Startup.begin], fun h => (nomatch h)⟩

theorem succeeding_step {made : List ClientReq} {s : Startup} (h : Succeeding made s)
    (op : StartupOp) : Succeeding made (s.step op) := by
  obtain ⟨todo, ends, queue, sent, over⟩ := s
  obtain ⟨h1, h2, h3, h4⟩ := h
  dsimp only at h1 h2 h3 h4
  subst h1
  cases op with
  | poll =>
    unfold Startup.step
    dsimp only
    split
    · exact ⟨rfl, h2, h3, h4⟩
    split
    · exact ⟨rfl, by simp; omega, by simpa using h3, fun _ => rfl⟩
    · rename_i ho _
      refine ⟨rfl, by simp; omega, ?_, fun h => absurd h ho⟩
      dsimp only
      rw [List.append_assoc, List.take_append_drop]; exact h3
  | transmit =>
    unfold Startup.step
    dsimp only
    cases queue with
    | nil => exact ⟨rfl, h2, h3, h4⟩
    | cons r q => exact ⟨rfl, by simp at h2 ⊢; omega, by simpa using h3, h4⟩

theorem succeeding_after {w : Work} (h : w.ends = .ok ()) (ops : Nat → StartupOp) (n : Nat) :
    Succeeding w.made (Startup.after (Startup.begin w) ops n) := by
  induction n with
  | zero => exact succeeding_begin h
  | succ n ih => exact succeeding_step ih _

/-- A start that does not fail loses nothing: what was transmitted, what is in the queue and what is
still to be asked for are together all its requests, in order. -/
theorem C143_kept {w : Work} (h : w.ends = .ok ()) (ops : List StartupOp) :
    let s := Startup.run ops (Startup.begin w)
    s.sent ++ (s.queue ++ s.todo) = w.made ∧ s.queue.length ≤ 10 ∧ (s.over = true → s.todo = []) := by
  suffices ∀ {s : Startup}, Succeeding w.made s → Succeeding w.made (Startup.run ops s) by
    have := this (succeeding_begin h)
    exact ⟨this.all, this.room, this.gone⟩
  induction ops with
  | nil => exact fun h => h
  | cons op ops ih => exact fun h => ih (succeeding_step h op)

/-! ## It comes to an end -/

/-- One step: the start is over, or less is left to do, or no more is in the queue than before. -/
theorem startup_moves (s : Startup) (op : StartupOp) : (s.step op).over = true ∨
    (s.step op).todo.length < s.todo.length ∨
    ((s.step op).todo.length = s.todo.length ∧ (s.step op).queue.length ≤ s.queue.length) := by
  obtain ⟨todo, ends, queue, sent, over⟩ := s
  cases op with
  | poll =>
    unfold Startup.step
    dsimp only
    split
    · exact .inl ‹_›
    split
    · split <;> exact .inl rfl
    · simp
      omega
  | transmit =>
    unfold Startup.step
    dsimp only
    split <;> simp

theorem startup_over (s : Startup) (op : StartupOp) (h : s.over = true) :
    (s.step op).over = true ∧ (s.step op).todo = s.todo := by
  obtain ⟨todo, ends, queue, sent, over⟩ := s
  cases h
  cases op with
  | poll => exact ⟨rfl, rfl⟩
  | transmit =>
    unfold Startup.step
    dsimp only
    split <;> exact ⟨rfl, rfl⟩

theorem startup_goes (s0 : Startup) (ops : Nat → StartupOp) (n d : Nat) :
    let s := Startup.after s0 ops n
    let t := Startup.after s0 ops (n + d)
    t.over = true ∨ t.todo.length < s.todo.length ∨
      (t.todo.length = s.todo.length ∧ t.queue.length ≤ s.queue.length) := by
  intro s
  induction d with
  | zero => exact .inr (.inr ⟨rfl, Nat.le_refl _⟩)
  | succ d ih =>
    have hm := startup_moves (Startup.after s0 ops (n + d)) (ops (n + d))
    rcases ih with ih | ih | ih
    · exact .inl (startup_over _ _ ih).1
    · rcases hm with h | h | h
      · exact .inl h
      · exact .inr (.inl (Nat.lt_trans h ih))
      · exact .inr (.inl (by rw [← h.1] at ih; exact ih))
    · rcases hm with h | h | h
      · exact .inl h
      · exact .inr (.inl (by rw [← ih.1]; exact h))
      · exact .inr (.inr ⟨h.1.trans ih.1, Nat.le_trans h.2 ih.2⟩)

theorem startup_room (s0 : Startup) (h : s0.queue.length ≤ 10) (ops : Nat → StartupOp) (n : Nat) :
    (Startup.after s0 ops n).queue.length ≤ 10 := by
  induction n with
  | zero => exact h
  | succ n ih =>
    change ((Startup.after s0 ops n).step (ops n)).queue.length ≤ 10
    generalize Startup.after s0 ops n = s at ih
    obtain ⟨todo, ends, queue, sent, over⟩ := s
    dsimp only at ih
    cases ops n with
    | poll =>
      unfold Startup.step
      dsimp only
      split
      · exact ih
      split
      · split <;> simp; omega
      · simp; omega
    | transmit =>
      unfold Startup.step
      dsimp only
      cases queue with
      | nil => exact ih
      | cons r q => simp at ih ⊢; omega

theorem startup_ends (s0 : Startup) (h0 : s0.queue.length ≤ 10) {ops : Nat → StartupOp}
    (hk : KeepsOn ops) (k : Nat) : ∀ n, (Startup.after s0 ops n).todo.length ≤ k →
    ∃ m, n ≤ m ∧ (Startup.after s0 ops m).over = true := by
  induction k using Nat.strongRecOn with
  | ind k ih =>
    intro n hn
    have again : ∀ m, n ≤ m → (Startup.after s0 ops m).todo.length <
        (Startup.after s0 ops n).todo.length →
        ∃ m, n ≤ m ∧ (Startup.after s0 ops m).over = true := by
      intro m hm hlt
      obtain ⟨m', h1, h2⟩ := ih _ (Nat.lt_of_lt_of_le hlt hn) m (Nat.le_refl _)
      exact ⟨m', by omega, h2⟩
    obtain ⟨t, ht, htr⟩ := (hk n).2
    obtain ⟨m, hm, hpo⟩ := (hk (t + 1)).1
    obtain ⟨d, rfl⟩ := Nat.exists_eq_add_of_le ht
    obtain ⟨d', rfl⟩ := Nat.exists_eq_add_of_le hm
    have hroom := startup_room s0 h0 ops (n + d)
    rcases startup_goes s0 ops n d with h | h | h
    · exact ⟨_, ht, h⟩
    · exact again _ ht h
    have hq : (Startup.after s0 ops (n + d + 1)).queue.length ≤ 9 ∧
        (Startup.after s0 ops (n + d + 1)).todo.length = (Startup.after s0 ops (n + d)).todo.length := by
      change ((Startup.after s0 ops (n + d)).step (ops (n + d))).queue.length ≤ 9 ∧
        ((Startup.after s0 ops (n + d)).step (ops (n + d))).todo.length = _
      rw [htr]
      generalize Startup.after s0 ops (n + d) = s at hroom
      obtain ⟨todo, ends, queue, sent, over⟩ := s
      unfold Startup.step
      cases queue with
      | nil => simp
      | cons r q => simp at hroom ⊢; omega
    rcases startup_goes s0 ops (n + d + 1) d' with h' | h' | h'
    · exact ⟨_, by omega, h'⟩
    · exact again (n + d + 1 + d') (by omega) (by omega)
    have hlast : (Startup.after s0 ops (n + d + 1 + d' + 1)).over = true ∨
        (Startup.after s0 ops (n + d + 1 + d' + 1)).todo.length <
          (Startup.after s0 ops (n + d + 1 + d')).todo.length := by
      change ((Startup.after s0 ops (n + d + 1 + d')).step (ops (n + d + 1 + d'))).over = true ∨
        ((Startup.after s0 ops (n + d + 1 + d')).step (ops (n + d + 1 + d'))).todo.length < _
      rw [hpo]
      have hq' : (Startup.after s0 ops (n + d + 1 + d')).queue.length ≤ 9 := by omega
      generalize Startup.after s0 ops (n + d + 1 + d') = s at hq'
      obtain ⟨todo, ends, queue, sent, over⟩ := s
      dsimp only at hq'
      unfold Startup.step
      dsimp only
      split
      · exact .inl ‹_›
      split
      · split <;> exact .inl rfl
      · right
        simp
        omega
    rcases hlast with h'' | h''
    · exact ⟨_, by omega, h''⟩
    · exact again (n + d + 1 + d' + 1) (by omega) (by omega)

theorem startup_drains {w : Work} (hw : w.ends = .ok ()) {ops : Nat → StartupOp} (hk : KeepsOn ops)
    (k : Nat) : ∀ n, (Startup.after (Startup.begin w) ops n).over = true →
      (Startup.after (Startup.begin w) ops n).queue.length ≤ k →
      ∃ m, (Startup.after (Startup.begin w) ops m).over = true ∧
        (Startup.after (Startup.begin w) ops m).sent = w.made := by
  induction k with
  | zero =>
    intro n ho hq
    have hs := succeeding_after hw ops n
    refine ⟨n, ho, ?_⟩
    have ha := hs.all
    rw [hs.gone ho, List.length_eq_zero_iff.mp (Nat.le_zero.mp hq)] at ha
    simpa using ha
  | succ k ih =>
    intro n ho hq
    obtain ⟨t, ht, htr⟩ := (hk n).2
    obtain ⟨d, rfl⟩ := Nat.exists_eq_add_of_le ht
    have key : (Startup.after (Startup.begin w) ops (n + d)).over = true ∧
        (Startup.after (Startup.begin w) ops (n + d)).queue.length ≤ k + 1 := by
      clear htr ht
      induction d with
      | zero => exact ⟨ho, hq⟩
      | succ d ihd =>
        obtain ⟨a, b⟩ := ihd
        refine ⟨(startup_over _ _ a).1, ?_⟩
        change ((Startup.after (Startup.begin w) ops (n + d)).step (ops (n + d))).queue.length ≤ k + 1
        generalize Startup.after (Startup.begin w) ops (n + d) = s at a b
        obtain ⟨todo, ends, queue, sent, over⟩ := s
        cases a
        cases ops (n + d) with
        | poll => exact b
        | transmit =>
          unfold Startup.step
          cases queue with
          | nil => exact b
          | cons r q => simp at b ⊢; omega
    refine ih (n + d + 1) (startup_over _ _ key.1).1 ?_
    change ((Startup.after (Startup.begin w) ops (n + d)).step (ops (n + d))).queue.length ≤ k
    rw [htr]
    have b := key.2
    generalize Startup.after (Startup.begin w) ops (n + d) = s at b
    obtain ⟨todo, ends, queue, sent, over⟩ := s
    unfold Startup.step
    cases queue with
    | nil => simp
    | cons r q => simpa using b

/-- As long as `inner` is polled and requests are transmitted again and again, the start comes to an
end; and if it does not fail, all its requests are transmitted. -/
theorem C143_ends (w : Work) {ops : Nat → StartupOp} (hk : KeepsOn ops) :
    ∃ n, (Startup.after (Startup.begin w) ops n).over = true ∧
      (w.ends = .ok () → (Startup.after (Startup.begin w) ops n).sent = w.made) := by
  obtain ⟨n, _, h⟩ := startup_ends (Startup.begin w) (by simp [Startup.begin]) hk _ 0 (Nat.le_refl _)
  by_cases hw : w.ends = .ok ()
  · obtain ⟨m, h1, h2⟩ := startup_drains hw hk _ n h (Nat.le_refl _)
    exact ⟨m, h1, fun _ => h2⟩
  · exact ⟨n, h, fun h' => absurd h' hw⟩

/-! ## A configuration without areas -/

theorem eachOne_length {α β : Type} {r : α → β → Prop} {l : List α} {x : List β} (h : Each r l x) :
    x.length = l.length := by
  induction h with
  | nil => rfl
  | cons _ _ ih => simp [ih]

/-- A configuration that is fine but for having no area: the start fails, after it has asked to
publish the state of every zone; and when it has failed, the states of all zones but the last ten or
fewer are out, to be retained. -/
theorem C143_noAreas {cfg : Cfg} {p : Panel} (hc : Connected p) (hw : WfView p)
    (hn : cfg.elk.areas = []) (hd : cfg.mqtt.haDiscoveryPrefix = none)
    (hcode : cfg.elk.code.toNat < 1000000) (hpre : NoWildcard cfg.prefix)
    (hz : ∀ a ∈ cfg.elk.zones, (1 ≤ a.1.toNat ∧ a.1.toNat ≤ 208) ∧ NoWildcard a.2.name) :
    ∃ e z ms, (Work.start cfg p).ends = .error e ∧ p.zoneStatuses = .ok z ∧
      Each (ZoneLine cfg.prefix z) cfg.elk.zones ms ∧ (Work.start cfg p).made = ms.map .publish ∧
      ∀ ops, (Startup.run ops (Startup.begin (Work.start cfg p))).over = true →
        ∃ k, CanBeOut cfg.elk.zones.length k ∧
          (Startup.run ops (Startup.begin (Work.start cfg p))).sent = (ms.take k).map .publish := by
  obtain ⟨v, hl, hu, -⟩ := C143_plan (cfg := cfg) hc hw
  have key : ∀ {l : List (UInt8 × ZoneCfg)} {rs o},
      (∀ a ∈ l, (1 ≤ a.1.toNat ∧ a.1.toNat ≤ 208) ∧ NoWildcard a.2.name) →
      Unfolds cfg v (l.map .zone ++ [.subscribe, .online]) rs o →
      o = false ∧ ∃ ms, Each (ZoneLine cfg.prefix v.zones) l ms ∧ rs = ms.map .publish := by
    intro l
    induction l with
    | nil =>
      intro rs o _ h
      cases h with
      | fails _ => exact ⟨rfl, [], .nil, rfl⟩
      | goes h _ _ => exact absurd hn h
    | cons a l ih =>
      intro rs o hz h
      have ha := hz a (by simp)
      cases h with
      | fails h => exact absurd ⟨ha.1, hpre, ha.2⟩ h
      | goes _ hs h =>
        obtain ⟨rfl, ms, h1, rfl⟩ := ih (fun b hb => hz b (by simp [hb])) h
        cases hs with
        | zone hs => exact ⟨rfl, _ :: ms, .cons hs h1, rfl⟩
  have hplan : startPlan cfg = .code :: (cfg.elk.zones.map .zone ++ [.subscribe, .online]) := by
    unfold startPlan
    rw [hn, hd]
    rfl
  rw [hplan] at hu
  generalize ho : (Work.start cfg p).ends.isOk = o at hu
  generalize hm : (Work.start cfg p).made = rs at hu
  cases hu with
  | fails h => exact absurd hcode h
  | goes _ ha hu =>
    cases ha
    obtain ⟨rfl, ms, h1, rfl⟩ := key hz hu
    cases he : (Work.start cfg p).ends with
    | ok u => rw [he] at ho; cases ho
    | error e =>
      refine ⟨e, v.zones, ms, rfl, hl.zones, h1, rfl, fun ops hov => ?_⟩
      obtain ⟨_, k, hk, hs⟩ := (C143_lost he ops).2.2 hov
      have hlen : ms.length = cfg.elk.zones.length := eachOne_length h1
      rw [hm] at hk hs
      refine ⟨k, ?_, ?_⟩
      · simpa [hlen] using hk
      · rw [hs, List.map_take]
        rfl

/-- Eleven zones and no area. -/
def arealess : Cfg :=
  { elk := { serialNumber := bs "42", code := 1234, areas := [],
             zones := (List.range 11).map fun i => (UInt8.ofNat (i + 1), ⟨decStr (i + 1), bs "door"⟩) }
    mqtt := { topicPrefix := none, haDiscoveryPrefix := none } }

theorem arealess_start : (Work.start arealess (samplePanel [])).ends.isOk = false ∧
    (Work.start arealess (samplePanel [])).made.length = 11 ∧
    (Startup.run [.poll, .transmit, .poll]
      (Startup.begin (Work.start arealess (samplePanel [])))).over = true ∧
    (match (Startup.run [.poll, .transmit, .poll]
      (Startup.begin (Work.start arealess (samplePanel [])))).sent with
    | [.publish ⟨t, true, .text x⟩] => decide (t = bs "elkm1/42/zone/1/ha_state" ∧ x = bs "off")
    | _ => false) = true := by decide +kernel

/-- Not vacuous: the bridge fails with its eleventh request still to come after it has told the broker
the state of a zone, which the broker then keeps. -/
theorem C143_sample : ∃ e, Bridge.start arealess (samplePanel []) = .error e ∧
    let s := Startup.run [.poll, .transmit, .poll] (Startup.begin (Work.start arealess (samplePanel [])))
    s.over = true ∧
    s.sent = [.publish ⟨bs "elkm1/42/zone/1/ha_state", true, .text (bs "off")⟩] := by
  obtain ⟨h1, h2, h3, h4⟩ := arealess_start
  cases he : (Work.start arealess (samplePanel [])).ends with
  | ok u => rw [he] at h1; cases h1
  | error e =>
    refine ⟨e, ((C143_start _ _).1 e).mpr he, h3, ?_⟩
    revert h4
    generalize (Startup.run [.poll, .transmit, .poll]
      (Startup.begin (Work.start arealess (samplePanel [])))).sent = l
    intro h4
    split at h4
    · simp only [decide_eq_true_eq] at h4
      rw [h4.1, h4.2]
    · cases h4

end Elk.Props
