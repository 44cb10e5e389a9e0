import Verif.Spec.EnvFilter
import Verif.Props.LogSecret
import Verif.Props.Watching
/-!
# Which lines the environment lets into the log (C149)
-/

namespace Elk.Props
open Elk.Spec

theorem caresAbout_iff (d : Directive) (t : Bytes) : d.caresAbout t = true ↔ Applies d t := by
  unfold Directive.caresAbout Applies
  cases h : d.target with
  | none => simp
  | some x => simp

theorem noFiner_iff (e d : Directive) : NoFiner e d ↔ e.weight ≤ d.weight := by
  unfold NoFiner precision Directive.weight
  cases e.target <;> cases d.target <;> simp

theorem admits_iff (v : Verbosity) (l : LogLevel) : l.rank ≤ v.rank ↔ Admits v l := by
  cases v <;> cases l <;> simp [Admits, Verbosity.rank, LogLevel.rank]

theorem same_target {d e : Directive} {t : Bytes} (hd : Applies d t) (he : Applies e t)
    (h : d.weight = e.weight) : d.target = e.target := by
  unfold Directive.weight at h
  unfold Applies at hd he
  cases h1 : d.target with
  | none => cases h2 : e.target with
    | none => rfl
    | some y => simp [h1, h2] at h
  | some x => cases h2 : e.target with
    | none => simp [h1, h2] at h
    | some y =>
      simp only [h1, h2] at h
      obtain ⟨u, hu⟩ := hd x h1
      obtain ⟨v, hv⟩ := he y h2
      have : x = y := (List.append_inj (hu.trans hv.symm) (by omega)).1
      rw [this]

/-- The most precise first. -/
def Sorted (l : List Directive) : Prop := l.Pairwise fun a b => b.weight ≤ a.weight

theorem addDirective_mem {d x : Directive} {l : List Directive} (h : x ∈ addDirective d l) :
    x = d ∨ x ∈ l := by
  induction l with
  | nil => simpa [addDirective] using h
  | cons e l ih =>
    unfold addDirective at h
    split at h
    · rcases List.mem_cons.mp h with h | h
      · exact .inl h
      · exact .inr (List.mem_cons_of_mem _ h)
    · split at h
      · simpa using h
      · rcases List.mem_cons.mp h with h | h
        · exact .inr (h ▸ List.mem_cons_self ..)
        · rcases ih h with h | h
          · exact .inl h
          · exact .inr (List.mem_cons_of_mem _ h)

theorem weight_eq {d e : Directive} (h : e.target = d.target) : e.weight = d.weight := by
  unfold Directive.weight
  rw [h]

theorem addDirective_sorted {d : Directive} {l : List Directive} (h : Sorted l) :
    Sorted (addDirective d l) := by
  unfold Sorted at *
  induction l with
  | nil => simp [addDirective]
  | cons e l ih =>
    rw [List.pairwise_cons] at h
    unfold addDirective
    split
    · rename_i ht
      exact List.pairwise_cons.mpr ⟨fun x hx => weight_eq ht ▸ h.1 x hx, h.2⟩
    · split
      · rename_i hw
        refine List.pairwise_cons.mpr ⟨fun x hx => ?_, List.pairwise_cons.mpr h⟩
        rcases List.mem_cons.mp hx with hx | hx
        · subst hx; omega
        · have := h.1 x hx; omega
      · rename_i hw
        refine List.pairwise_cons.mpr ⟨fun x hx => ?_, ih h.2⟩
        rcases addDirective_mem hx with hx | hx
        · subst hx; omega
        · exact h.1 x hx

theorem find_sorted {l : List Directive} (h : Sorted l) {p : Directive → Bool} {x e : Directive}
    {r : List Directive} (hl : l = e :: r) (hx : l.find? p = some x) : x.weight ≤ e.weight := by
  subst hl
  have := List.mem_of_find?_eq_some hx
  rcases List.mem_cons.mp this with h' | h'
  · exact h' ▸ Nat.le_refl _
  · exact (List.pairwise_cons.mp h).1 x h'

/-- Adding a directive: it decides unless a more precise one does. -/
theorem find_add {d : Directive} {l : List Directive} (h : Sorted l) (t : Bytes) :
    (Applies d t ∧ (∀ e, l.find? (·.caresAbout t) = some e → e.weight ≤ d.weight) ∧
      (addDirective d l).find? (·.caresAbout t) = some d) ∨
    ((Applies d t → ∃ e, l.find? (·.caresAbout t) = some e ∧ d.weight < e.weight) ∧
      (addDirective d l).find? (·.caresAbout t) = l.find? (·.caresAbout t)) := by
  induction l with
  | nil =>
    by_cases ha : Applies d t
    · left
      exact ⟨ha, nofun, by simp [addDirective, (caresAbout_iff d t).mpr ha]⟩
    · right
      have hn : d.caresAbout t = false := by simpa using mt (caresAbout_iff d t).mp ha
      exact ⟨fun x => absurd x ha, by simp [addDirective, hn]⟩
  | cons e l ih =>
    have hs := List.pairwise_cons.mp h
    unfold addDirective
    by_cases ht : e.target = d.target
    · rw [if_pos ht]
      have hw := weight_eq ht
      by_cases ha : Applies d t
      · left
        refine ⟨ha, fun x hx => hw ▸ find_sorted h rfl hx, ?_⟩
        simp [(caresAbout_iff d t).mpr ha]
      · right
        have hn : d.caresAbout t = false := by simpa using mt (caresAbout_iff d t).mp ha
        have hn' : e.caresAbout t = false := by
          unfold Directive.caresAbout at hn ⊢; rw [ht]; exact hn
        exact ⟨fun x => absurd x ha, by simp [hn, hn']⟩
    · rw [if_neg ht]
      by_cases hw : e.weight < d.weight
      · rw [if_pos hw]
        by_cases ha : Applies d t
        · left
          refine ⟨ha, fun x hx => ?_, ?_⟩
          · have := find_sorted h rfl hx; omega
          · simp [(caresAbout_iff d t).mpr ha]
        · right
          have hn : d.caresAbout t = false := by simpa using mt (caresAbout_iff d t).mp ha
          exact ⟨fun x => absurd x ha, by rw [List.find?_cons, hn]⟩
      · rw [if_neg hw]
        by_cases he : Applies e t
        · right
          have hc := (caresAbout_iff e t).mpr he
          refine ⟨fun ha => ⟨e, by simp [hc], ?_⟩, by simp [hc]⟩
          have : d.weight ≠ e.weight := fun h' => ht (same_target he ha h'.symm)
          omega
        · have hn : e.caresAbout t = false := by simpa using mt (caresAbout_iff e t).mp he
          simp only [List.find?_cons, hn]
          exact ih hs.2

/-- What is known of the set made of some directives. -/
def Settled (ds l : List Directive) : Prop :=
  Sorted l ∧ ∀ t, match l.find? (·.caresAbout t) with
    | some d => Decides ds t d
    | none => ∀ e ∈ ds, ¬ Applies e t

theorem settled_add {ds l : List Directive} {d : Directive} (h : Settled ds l) :
    Settled (ds ++ [d]) (addDirective d l) := by
  refine ⟨addDirective_sorted h.1, fun t => ?_⟩
  have hh := h.2 t
  rcases find_add (d := d) h.1 t with ⟨ha, hle, hf⟩ | ⟨hlt, hf⟩
  · rw [hf]
    refine ⟨ds, [], rfl, ha, fun e he hea => ?_, nofun⟩
    rw [noFiner_iff]
    cases hl : l.find? (·.caresAbout t) with
    | none => rw [hl] at hh; exact absurd hea (hh e he)
    | some x =>
      rw [hl] at hh
      have h1 := hle x hl
      obtain ⟨bf, af, rfl, _, hb, hc⟩ := hh
      rcases List.mem_append.mp he with he | he
      · have := (noFiner_iff e x).mp (hb e he hea); omega
      · rcases List.mem_cons.mp he with he | he
        · exact he ▸ h1
        · have := mt (noFiner_iff x e).mpr (hc e he hea); omega
  · rw [hf]
    cases hl : l.find? (·.caresAbout t) with
    | none =>
      rw [hl] at hh
      intro e he hea
      rcases List.mem_append.mp he with he | he
      · exact hh e he hea
      · have : e = d := by simpa using he
        subst this
        obtain ⟨x, hx, _⟩ := hlt hea
        rw [hl] at hx
        cases hx
    | some x =>
      rw [hl] at hh
      obtain ⟨bf, af, rfl, hx, hb, hc⟩ := hh
      refine ⟨bf, af ++ [d], by simp, hx, hb, fun e he hea => ?_⟩
      rcases List.mem_append.mp he with he | he
      · exact hc e he hea
      · have : e = d := by simpa using he
        subst this
        obtain ⟨y, hy, hlt⟩ := hlt hea
        rw [hl] at hy
        cases hy
        rw [noFiner_iff]
        omega

theorem settled_fold (ds : List Directive) {ds0 l : List Directive} (h : Settled ds0 l) :
    Settled (ds0 ++ ds) (ds.foldl (fun l d => addDirective d l) l) := by
  induction ds generalizing ds0 l with
  | nil => simpa using h
  | cons d ds ih =>
    have := ih (settled_add (d := d) h)
    simpa using this

theorem settled_nil : Settled [] [] := ⟨List.Pairwise.nil, fun _ => nofun⟩

theorem decides_one {ds : List Directive} {t : Bytes} {d e : Directive} (hd : Decides ds t d)
    (he : Decides ds t e) : d = e := by
  obtain ⟨b, a, rfl, hda, hdb, hdc⟩ := hd
  obtain ⟨b', a', h, hea, heb, hec⟩ := he
  simp only [noFiner_iff] at *
  rcases List.append_eq_append_iff.mp h with ⟨c, rfl, hc⟩ | ⟨c, rfl, hc⟩
  · cases c with
    | nil => simpa using (List.cons.inj (by simpa using hc)).1
    | cons x c =>
      have hx : d = x ∧ a = c ++ e :: a' := by simpa using hc
      obtain ⟨rfl, rfl⟩ := hx
      exact absurd (heb d (by simp) hda) (hdc e (by simp) hea)
  · cases c with
    | nil => simpa using (List.cons.inj (by simpa using hc)).1.symm
    | cons x c =>
      have hx : e = x ∧ a' = c ++ d :: a := by simpa using hc
      obtain ⟨rfl, rfl⟩ := hx
      exact absurd (hdb e (by simp) hea) (hec d (by simp) hda)

theorem filter_iff (ds : List Directive) (t : Bytes) (l : LogLevel) :
    filterEnabled (envFilter ds) t l = true ↔ LetsThrough ds t l := by
  unfold filterEnabled envFilter LetsThrough
  cases ds with
  | nil =>
    have : ∀ d, ¬ Decides [] t d := by
      rintro d ⟨b, a, h, _⟩
      simp at h
    simp [addDirective, Directive.caresAbout, admits_iff, this]
  | cons d0 ds =>
    have hs := (settled_fold (d0 :: ds) settled_nil).2 t
    simp only [List.nil_append] at hs
    simp only [List.isEmpty_cons, Bool.false_eq_true, if_false, reduceCtorEq, false_and, false_or]
    cases hf : (List.foldl (fun l d => addDirective d l) [] (d0 :: ds)).find? (·.caresAbout t) with
    | none =>
      rw [hf] at hs
      refine ⟨nofun, ?_⟩
      rintro ⟨d, ⟨b, a, h, hd, _⟩, _⟩
      exact absurd hd (hs d (by rw [h]; simp))
    | some d =>
      rw [hf] at hs
      simp only [decide_eq_true_eq, admits_iff]
      exact ⟨fun h => ⟨d, hs, h⟩, fun ⟨e, he, ha⟩ => decides_one he hs ▸ ha⟩

/-- **C149**: a call is enabled exactly if the directives of the environment let it through: the most
precise one that is for its target decides, of equally precise ones the last; without any directive
calls at level `INFO` and above are enabled. -/
theorem C149_filter (ds : List Directive) (s : Callsite) :
    setupTracing ds s = true ↔ LetsThrough ds s.target s.level := filter_iff ds s.target s.level

/-- **C149**: exactly one directive decides, if there is one for the target at all. -/
theorem C149_decided (ds : List Directive) (t : Bytes) :
    (∀ d e, Decides ds t d → Decides ds t e → d = e) ∧
    ((∃ d, Decides ds t d) ↔ ∃ d ∈ ds, Applies d t) := by
  refine ⟨fun d e => decides_one, fun ⟨d, b, a, h, hd, _⟩ => ⟨d, by rw [h]; simp, hd⟩, ?_⟩
  rintro ⟨d, hd, ha⟩
  have hs := (settled_fold ds settled_nil).2 t
  simp only [List.nil_append] at hs
  cases hf : (List.foldl (fun l d => addDirective d l) [] ds).find? (·.caresAbout t) with
  | none => rw [hf] at hs; exact absurd ha (hs d hd)
  | some e => rw [hf] at hs; exact ⟨e, hs⟩

/-- **C149**: without directives what the other properties call the default is enabled. -/
theorem C149_default : setupTracing [] = Callsite.byDefault := by
  funext s
  cases s <;> decide

/-- Non-vacuity: the directive for the longer target decides, wherever it is. -/
example : setupTracing [⟨some (bs "elkm1::tokio"), .trace⟩, ⟨some (bs "elkm1"), .warn⟩] .sending = true ∧
    setupTracing [⟨some (bs "elkm1::tokio"), .trace⟩, ⟨some (bs "elkm1"), .warn⟩] .command = false ∧
    setupTracing [⟨some (bs "elkm1"), .warn⟩, ⟨some (bs "elkm1"), .debug⟩] .command = true := by decide

/-- **C149**: making directives more verbose hides nothing. -/
theorem C149_louder (ds : List Directive) (hn : ds ≠ []) (f : Verbosity → Verbosity)
    (hf : ∀ v l, Admits v l → Admits (f v) l) (s : Callsite) (h : setupTracing ds s = true) :
    setupTracing (ds.map fun d => { d with max := f d.max }) s = true := by
  rw [C149_filter] at h ⊢
  rcases h with ⟨h, _⟩ | ⟨d, ⟨b, a, rfl, ha, hb, hc⟩, hm⟩
  · exact absurd h hn
  · refine .inr ⟨{ d with max := f d.max }, ⟨_, _, List.map_append, ha, ?_, ?_⟩, hf _ _ hm⟩
    · intro e he hea
      obtain ⟨e, hm, rfl⟩ := List.mem_map.mp he
      exact hb e hm hea
    · intro e he hea
      obtain ⟨e, hm, rfl⟩ := List.mem_map.mp he
      exact hc e hm hea

/-- **C149**: but directives that are for other targets only hide all that `watch` itself logs, even that
which is logged by default. -/
theorem C149_hidden {ds : List Directive} (hn : ds ≠ []) (ha : ∀ d ∈ ds, ¬ Applies d (bs "elkm1_cli"))
    {ops : List WatcherOp} {log : List Record} {w : Watcher}
    (h : Watcher.runL (setupTracing ds) ops .dialing = .ok (log, w)) :
    ∀ r ∈ log, r.site ∉ [.tracking, .polled, .zoneLine, .areaLine] := by
  obtain ⟨l, x, _, _, _, he, _⟩ := C133_follows h
  have := he (setupTracing ds)
  rw [h] at this
  cases this
  intro r hr hs
  have hon : setupTracing ds r.site = true := (List.mem_filter.mp hr).2
  rw [C149_filter] at hon
  have ht : r.site.target = bs "elkm1_cli" := by
    revert hs
    cases r.site <;> decide
  rw [ht] at hon
  rcases hon with ⟨h, _⟩ | ⟨d, ⟨b, a, rfl, hd, _⟩, _⟩
  · exact hn h
  · exact ha d (by simp) hd

/-- Non-vacuity: asking for more from one module of the library hides the change of a zone, which is
logged by default. -/
example : (∃ r, Watch.runL (setupTracing []) [.tick ⟨1, 0, 0⟩]
      (.watching (samplePanel [.data (msgBytes (.zoneChange ⟨⟨3⟩, ⟨9⟩⟩))])) = .ok r ∧
      decide (r.1.map Record.site = [.zoneLine]) = true) ∧
    (∃ r, Watch.runL (setupTracing [⟨some (bs "elkm1::state"), .debug⟩]) [.tick ⟨1, 0, 0⟩]
      (.watching (samplePanel [.data (msgBytes (.zoneChange ⟨⟨3⟩, ⟨9⟩⟩))])) = .ok r ∧
      decide (r.1.map Record.site = []) = true) :=
  ⟨of_holds (by decide +kernel), of_holds (by decide +kernel)⟩

/-- With these calls enabled, the log of the bridge is the same for all codes. -/
def KeepsSecret (on : Callsite → Bool) : Prop :=
  ∀ (cfg : Cfg) (c' : UInt32) (p0 : Panel) (b0 : Bridge) (ops : List BOp) (obs : List BObs)
    (b : Bridge), c'.toNat < 1000000 → Connected p0 → WfView p0 → Bridge.start cfg p0 = .ok b0 →
    Bridge.run ops b0 = .ok (obs, b) →
    ∃ lg b0' obs' b', Bridge.runL on ops b0 = .ok (lg, obs, b) ∧
      Bridge.start { cfg with elk := { cfg.elk with code := c' } } p0 = .ok b0' ∧
      Bridge.runL on ops b0' = .ok (lg, obs', b')

/-- What a line shows. -/
def lineText (r : Record) : List (String × Bytes) :=
  r.fields.map fun f => (f.1, match f.2 with
    | .debug d => d.text
    | .text t => t
    | .publish t _ => t
    | .bytes b => b)

/-- A request to arm that the panel answers. -/
def armed : List BOp :=
  [.deliver ⟨bs "elkm1/42/area/home/ha_command", bs "ARM_AWAY"⟩,
    .tick ⟨1, 0, 0⟩ true, .tick ⟨1, 0, 0⟩ true, .writable (.accept 100),
    .tick ⟨1, 0, 0⟩ true, .arrive (.data (msgBytes sampleIC)), .tick ⟨1, 0, 0⟩ true]

/-- What such a call shows of it with this code. -/
def armedLines (s : Callsite) (c : UInt32) : P (List (List (String × Bytes))) :=
  Bridge.start { sampleCfg with elk := { sampleCfg.elk with code := c } } (samplePanel []) >>= fun b =>
    Bridge.runL (fun _ => true) armed b >>= fun y =>
      .ok ((enabled (fun x => decide (x = s)) y.1).map lineText)

theorem armed_tells : ∀ s ∈ [Callsite.panelEvent, .command, .sending],
    armedLines s 1234 ≠ armedLines s 4321 := by
  have key : ∀ s ∈ [Callsite.panelEvent, .command, .sending],
      holds (armedLines s 1234 >>= fun x => armedLines s 4321 >>= fun y => .ok (x, y))
        (fun z => decide (z.1 ≠ z.2)) = true := by decide +kernel
  intro s hs he
  obtain ⟨z, hz, hd⟩ := of_holds (key s hs)
  rw [P_bind_ok] at hz
  obtain ⟨x, hx, hz⟩ := hz
  rw [P_bind_ok] at hz
  obtain ⟨y, hy, hz⟩ := hz
  cases hz
  rw [he, hy] at hx
  cases hx
  exact of_decide_eq_true hd rfl

theorem tells {on : Callsite → Bool} (h : KeepsSecret on) {s : Callsite}
    (hs : s ∈ [Callsite.panelEvent, .command, .sending]) : on s = false := by
  rw [← Bool.not_eq_true]
  intro hon
  have key : holds (Bridge.start sampleCfg (samplePanel []) >>= fun b =>
      Bridge.run armed b >>= fun y => .ok (b, y)) (fun _ => true) = true := by decide +kernel
  obtain ⟨⟨b0, obs, b⟩, hk, -⟩ := of_holds key
  rw [P_bind_ok] at hk
  obtain ⟨b0', h1, hk⟩ := hk
  rw [P_bind_ok] at hk
  obtain ⟨y, h2, hk⟩ := hk
  cases hk
  obtain ⟨lg, b1, lg', obs', b', e1, e2, e3, _⟩ := C128_log_partial (c' := 4321) (by decide)
    (samplePanel_connected _) (samplePanel_view _) h1 h2
  obtain ⟨lg0, b1', obs1, b1'', f1, f2, f3⟩ := h sampleCfg 4321 (samplePanel []) b0 armed obs b
    (by decide) (samplePanel_connected _) (samplePanel_view _) h1 h2
  rw [e2] at f2
  cases f2
  have g1 := (e1 on).symm.trans f1
  have g2 := (e3 on).symm.trans f3
  have g : enabled on lg = enabled on lg' :=
    (congrArg Prod.fst (Except.ok.inj g1)).trans (congrArg Prod.fst (Except.ok.inj g2)).symm
  have one : ∀ l, enabled (fun x => decide (x = s)) l =
      enabled (fun x => decide (x = s)) (enabled on l) := fun l =>
    enabled_both (fun x hx => by rw [decide_eq_true_eq] at hx; rw [hx]; exact hon) l
  have all : ∀ l, enabled (fun _ => true) l = l := fun l => by
    unfold enabled; exact List.filter_eq_self.mpr fun _ _ => rfl
  refine armed_tells s hs ?_
  unfold armedLines
  have h1' : Bridge.start { sampleCfg with elk := { sampleCfg.elk with code := 1234 } }
    (samplePanel []) = .ok b0 := h1
  rw [h1', e2]
  simp only [bind_ok]
  rw [e1, e3]
  simp only [bind_ok, all]
  rw [one lg, one lg', g]

/-- **C149**: the environment keeps the configured code out of the log of the bridge exactly if it lets
none of these through: `INFO` of the program, `DEBUG` of the panel, `TRACE` of the connection. -/
theorem C149_secret (ds : List Directive) : KeepsSecret (setupTracing ds) ↔
    ¬ LetsThrough ds (bs "elkm1_mqtt") .info ∧ ¬ LetsThrough ds (bs "elkm1::state") .debug ∧
      ¬ LetsThrough ds (bs "elkm1::tokio") .trace := by
  have e1 := C149_filter ds .panelEvent
  have e2 := C149_filter ds .command
  have e3 := C149_filter ds .sending
  constructor
  · intro h
    refine ⟨fun hp => ?_, fun hp => ?_, fun hp => ?_⟩
    · have := tells h (s := .panelEvent) (by simp)
      rw [e1.mpr hp] at this; cases this
    · have := tells h (s := .command) (by simp)
      rw [e2.mpr hp] at this; cases this
    · have := tells h (s := .sending) (by simp)
      rw [e3.mpr hp] at this; cases this
  · rintro ⟨h1, h2, h3⟩ cfg c' p0 b0 ops obs b hc' hc hw hs hr
    obtain ⟨lg, b0', lg', obs', b', g1, g2, g3, g4, _⟩ := C128_log_partial hc' hc hw hs hr
    have := g4 (setupTracing ds) (by simpa using mt e1.mp h1) (by simpa using mt e2.mp h2)
      (by simpa using mt e3.mp h3)
    exact ⟨_, b0', obs', b', g1 _, g2, by rw [this]; exact g3 _⟩

/-- **C149**: so it does not by default, but does if the one directive is for all and lets nothing but
warnings and errors through, or nothing. -/
theorem C149_warn (v : Verbosity) : ¬ KeepsSecret (setupTracing []) ∧
    (KeepsSecret (setupTracing [⟨none, v⟩]) ↔ v = .warn ∨ v = .error ∨ v = .off) := by
  have one : ∀ t l, LetsThrough [⟨none, v⟩] t l ↔ Admits v l := by
    intro t l
    unfold LetsThrough
    simp only [reduceCtorEq, false_and, false_or]
    constructor
    · rintro ⟨d, ⟨b, a, h, _⟩, hm⟩
      have hd : d ∈ [(⟨none, v⟩ : Directive)] := by rw [h]; simp
      rw [List.mem_singleton] at hd
      subst hd
      exact hm
    · exact fun h => ⟨_, ⟨[], [], rfl, nofun, nofun, nofun⟩, h⟩
  constructor
  · rw [C149_secret]
    exact fun h => h.1 (.inl ⟨rfl, .inl rfl⟩)
  · rw [C149_secret, one, one, one]
    cases v <;> simp [Admits]

end Elk.Props
