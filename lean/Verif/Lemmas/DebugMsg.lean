import Verif.Lemmas.Debug
import Verif.Lemmas.Complaint
import Verif.Props.Cli
/-!
# Lemmas: what `{:?}` shows of messages
-/

namespace Elk
open Elk.Spec Elk.Props

/-! ## Names of variants -/

/-- The names of the variants are words and differ. -/
class TellsVariants (α : Type) [Variants α] : Prop where
  word : ∀ a : α, IsWord (bs (Variants.variant a))
  inj : ∀ a b : α, bs (Variants.variant a) = bs (Variants.variant b) → a = b

/-- All values of an enum are in a list of them. -/
theorem names_of {α : Type} [Variants α] (l : List α) (hl : ∀ a, a ∈ l)
    (hw : ∀ a ∈ l, IsWord (bs (Variants.variant a)))
    (hi : ∀ a ∈ l, ∀ b ∈ l, bs (Variants.variant a) = bs (Variants.variant b) → a = b) : TellsVariants α :=
  ⟨fun a => hw a (hl a), fun a b => hi a (hl a) b (hl b)⟩

instance : TellsVariants ArmLevel :=
  names_of (ByteEnum.all (α := ArmLevel)) (by intro a; cases a <;> decide) (by decide +kernel)
    (by decide +kernel)
instance : TellsVariants TimeDataType :=
  names_of (ByteEnum.all (α := TimeDataType)) (by intro a; cases a <;> decide) (by decide +kernel)
    (by decide +kernel)
instance : TellsVariants ArmedState :=
  names_of (ByteEnum.all (α := ArmedState)) (by intro a; cases a <;> decide) (by decide +kernel)
    (by decide +kernel)
instance : TellsVariants Weekday :=
  names_of (ByteEnum.all (α := Weekday)) (by intro a; cases a <;> decide) (by decide +kernel)
    (by decide +kernel)
instance : TellsVariants ClockDisplayMode :=
  names_of (ByteEnum.all (α := ClockDisplayMode)) (by intro a; cases a <;> decide) (by decide +kernel)
    (by decide +kernel)
instance : TellsVariants DateDisplayMode :=
  names_of (ByteEnum.all (α := DateDisplayMode)) (by intro a; cases a <;> decide) (by decide +kernel)
    (by decide +kernel)
instance : TellsVariants ArmingStatus :=
  names_of (ByteEnum.all (α := ArmingStatus)) (by intro a; cases a <;> decide) (by decide +kernel)
    (by decide +kernel)
instance : TellsVariants ArmUpState :=
  names_of (ByteEnum.all (α := ArmUpState)) (by intro a; cases a <;> decide) (by decide +kernel)
    (by decide +kernel)
instance : TellsVariants AlarmState :=
  names_of (ByteEnum.all (α := AlarmState)) (by intro a; cases a <;> decide) (by decide +kernel)
    (by decide +kernel)
instance : TellsVariants TextDescriptionType :=
  names_of (ByteEnum.all (α := TextDescriptionType)) (by intro a; cases a <;> decide)
    (by decide +kernel) (by decide +kernel)
instance : TellsVariants ZoneLogicalStatus :=
  names_of [.normal, .trouble, .violated, .bypassed] (by intro a; cases a <;> decide)
    (by decide +kernel) (by decide +kernel)
instance : TellsVariants ZonePhysicalStatus :=
  names_of [.unconfigured, .opened, .eol, .short] (by intro a; cases a <;> decide)
    (by decide +kernel) (by decide +kernel)

theorem variant_inj {α : Type} [Variants α] [TellsVariants α] {a b : α}
    (h : Variants.debug a = Variants.debug b) : a = b := by
  unfold Variants.debug Dbg.unit at h
  injection h with h
  exact TellsVariants.inj a b h

theorem variant_fine {α : Type} [Variants α] [TellsVariants α] (a : α) : (Variants.debug a).Fine := by
  unfold Variants.debug Dbg.unit
  rw [Dbg.Fine]
  exact TellsVariants.word a

/-! ## Parts -/

theorem num_inj {m n : Nat} (h : Dbg.num m = Dbg.num n) : m = n := by
  unfold Dbg.num at h
  injection h with h
  exact decStr_inj h

theorem num_fine (n : Nat) : (Dbg.num n).Fine := by
  unfold Dbg.num
  rw [Dbg.Fine]
  exact ⟨decStr_ne n, decStr_wordy n⟩

theorem u8_inj {a b : UInt8} (h : Dbg.num a.toNat = Dbg.num b.toNat) : a = b :=
  UInt8.toNat_inj.mp (num_inj h)

theorem limited_inj {max : Nat} {a b : Limited max} (h : a.debug = b.debug) : a = b := by
  obtain ⟨a⟩ := a
  obtain ⟨b⟩ := b
  exact congrArg _ (u8_inj h)

theorem limited_fine {max : Nat} (a : Limited max) : a.debug.Fine := num_fine _

theorem bool_inj {a b : Bool} (h : Dbg.bool a = Dbg.bool b) : a = b := by
  unfold Dbg.bool at h
  injection h with h
  revert a b
  decide

theorem bool_fine (a : Bool) : (Dbg.bool a).Fine := by
  unfold Dbg.bool
  rw [Dbg.Fine]
  revert a
  decide

theorem fineItems_iff : ∀ {l : List Dbg}, Dbg.FineItems l ↔ ∀ x ∈ l, x.Fine
  | [] => by rw [Dbg.FineItems]; simp
  | a :: l => by rw [Dbg.FineItems, fineItems_iff]; simp

theorem map_inj {α β : Type} {f : α → β} (hf : ∀ a b, f a = f b → a = b) :
    ∀ {l l' : List α}, l.map f = l'.map f → l = l'
  | [], [], _ => rfl
  | [], _ :: _, h => by cases h
  | _ :: _, [], h => by cases h
  | a :: l, b :: l', h => by
    rw [List.map_cons, List.map_cons] at h
    injection h with h1 h2
    rw [hf a b h1, map_inj hf h2]

theorem arr_inj {α : Type} {n : Nat} {f : α → Dbg} (hf : ∀ a b, f a = f b → a = b)
    {v v' : Vector α n} (h : Dbg.arr f v = Dbg.arr f v') : v = v' := by
  unfold Dbg.arr at h
  injection h with h
  exact Vector.toList_inj.mp (map_inj hf h)

theorem arr_fine {α : Type} {n : Nat} {f : α → Dbg} (hf : ∀ a, (f a).Fine) (v : Vector α n) :
    (Dbg.arr f v).Fine := by
  unfold Dbg.arr
  rw [Dbg.Fine, fineItems_iff]
  intro x hx
  obtain ⟨a, _, rfl⟩ := List.mem_map.mp hx
  exact hf a

theorem wrap_inj {name name' : String} {x y : Dbg} (h : Dbg.wrap name x = Dbg.wrap name' y) :
    bs name = bs name' ∧ x = y := by
  unfold Dbg.wrap at h
  injection h with h1 h2
  injection h2 with h2
  exact ⟨h1, h2⟩

theorem wrap_fine {name : String} {x : Dbg} (hn : IsWord (bs name)) (hx : x.Fine) :
    (Dbg.wrap name x).Fine := by
  unfold Dbg.wrap
  rw [Dbg.Fine, Dbg.FineItems, Dbg.FineItems]
  exact ⟨hn, by simp, hx, trivial⟩

/-- The fields of a struct are words, and their values are fine. -/
theorem struct_fine {name : String} {fields : List (String × Dbg)} (hn : IsWord (bs name))
    (hne : fields ≠ []) (h : ∀ f ∈ fields, IsWord (bs f.1) ∧ f.2.Fine) :
    (Dbg.struct name fields).Fine := by
  unfold Dbg.struct
  rw [Dbg.Fine]
  refine ⟨hn, by simpa using hne, ?_⟩
  clear hn hne
  induction fields with
  | nil => rw [List.map_nil, Dbg.FineFields]; trivial
  | cons f l ih =>
    rw [List.map_cons, Dbg.FineFields]
    exact ⟨(h f List.mem_cons_self).1, (h f List.mem_cons_self).2,
      ih fun g hg => h g (List.mem_cons_of_mem _ hg)⟩

theorem struct_inj {name name' : String} {l l' : List (String × Dbg)}
    (h : Dbg.struct name l = Dbg.struct name' l') : l.map (·.2) = l'.map (·.2) := by
  unfold Dbg.struct at h
  injection h with _ h
  have := congrArg (List.map (·.2)) h
  simpa [List.map_map, Function.comp_def] using this

theorem opt_ok {α : Type} {f : α → P Dbg} {o : Option α} (h : ∀ a, o = some a → ∃ x, f a = .ok x ∧ x.Fine) :
    ∃ x, Dbg.opt f o = .ok x ∧ x.Fine := by
  cases o with
  | none => exact ⟨_, rfl, by show Dbg.Fine (.word _); rw [Dbg.Fine]; decide⟩
  | some a =>
    obtain ⟨x, h1, h2⟩ := h a rfl
    refine ⟨.wrap "Some" x, ?_, wrap_fine (by decide) h2⟩
    unfold Dbg.opt
    dsimp only
    rw [h1]
    rfl

theorem opt_inj {α : Type} {f : α → P Dbg} {o o' : Option α} {x : Dbg}
    (hf : ∀ a a' y, o = some a → o' = some a' → f a = .ok y → f a' = .ok y → a = a')
    (h : Dbg.opt f o = .ok x) (h' : Dbg.opt f o' = .ok x) : o = o' := by
  cases o with
  | none =>
    cases h
    cases o' with
    | none => rfl
    | some a =>
      unfold Dbg.opt at h'
      obtain ⟨y, _, h'⟩ := P_bind_ok.mp h'
      cases h'
  | some a =>
    unfold Dbg.opt at h
    obtain ⟨y, h1, h⟩ := P_bind_ok.mp h
    cases h
    cases o' with
    | none => cases h'
    | some a' =>
      unfold Dbg.opt at h'
      obtain ⟨y', h2, h'⟩ := P_bind_ok.mp h'
      injection h' with h'
      obtain ⟨_, rfl⟩ := wrap_inj h'
      rw [hf a a' _ rfl rfl h1 h2]

theorem code_ok {c : ArmCode} (h : WfArmCode c) : c.debug = .ok (.str c.code.toList) := by
  unfold ArmCode.debug
  rw [if_pos]
  exact utf8Go_ascii _ fun b hb => by
    have := h b hb
    unfold IsDigit at this
    unfold Printable
    omega

theorem code_inj {c c' : ArmCode} {x : Dbg} (h : c.debug = .ok x) (h' : c'.debug = .ok x) : c = c' := by
  unfold ArmCode.debug at h h'
  split at h
  · split at h'
    · cases h
      injection h' with h'
      injection h' with h'
      obtain ⟨c⟩ := c
      obtain ⟨c'⟩ := c'
      exact congrArg _ (Vector.toList_inj.mp h'.symm)
    · cases h'
  · cases h

theorem str_fine (s : Bytes) : (Dbg.str s).Fine := by rw [Dbg.Fine]; trivial

theorem text_ok {t : TextDescription} (h : WfText t) : ∃ x, t.debug = .ok x ∧ x.Fine := by
  unfold TextDescription.debug
  rw [asStr_wf h]
  exact ⟨_, rfl, str_fine _⟩

theorem text_inj {t t' : TextDescription} (ht : WfText t) (ht' : WfText t') {x : Dbg}
    (h : t.debug = .ok x) (h' : t'.debug = .ok x) : t = t' := by
  unfold TextDescription.debug at h h'
  obtain ⟨s, h1, h⟩ := P_bind_ok.mp h
  obtain ⟨s', h2, h'⟩ := P_bind_ok.mp h'
  cases h
  injection h' with h'
  injection h' with h'
  rw [h'] at h2
  exact (C27_equal t t' ht ht').mp (h1.trans h2.symm)

theorem zone_ok {s : ZoneStatus} (h : WfZoneStatus s) :
    s.debugTree = .ok (.tuple (bs "ZoneStatus") [Variants.debug (zoneOf s).1, Variants.debug (zoneOf s).2]) := by
  unfold ZoneStatus.debugTree
  rw [debug_wf h]
  rfl

theorem zone_fine {s : ZoneStatus} (h : WfZoneStatus s) : ∃ x, s.debugTree = .ok x ∧ x.Fine := by
  refine ⟨_, zone_ok h, ?_⟩
  rw [Dbg.Fine, Dbg.FineItems, Dbg.FineItems, Dbg.FineItems]
  exact ⟨by decide, by simp, variant_fine _, variant_fine _, trivial⟩

theorem zoneOf_inj {s s' : ZoneStatus} (h : WfZoneStatus s) (h' : WfZoneStatus s')
    (he : zoneOf s = zoneOf s') : s = s' := by
  obtain ⟨v⟩ := s
  obtain ⟨v'⟩ := s'
  have key : ∀ a b : Fin 16, zoneOf ⟨UInt8.ofNat a⟩ = zoneOf ⟨UInt8.ofNat b⟩ → a = b := by
    decide +kernel
  have h : v.toNat < 16 := h
  have h' : v'.toNat < 16 := h'
  have := key ⟨v.toNat, h⟩ ⟨v'.toNat, h'⟩ (by simpa using he)
  injection this with this
  rw [UInt8.toNat_inj.mp this]

theorem zone_inj {s s' : ZoneStatus} (hs : WfZoneStatus s) (hs' : WfZoneStatus s') {x : Dbg}
    (h : s.debugTree = .ok x) (h' : s'.debugTree = .ok x) : s = s' := by
  rw [zone_ok hs] at h
  rw [zone_ok hs'] at h'
  cases h
  injection h' with h'
  injection h' with _ h'
  injection h' with h1 h2
  injection h2 with h2
  exact zoneOf_inj hs hs' (Prod.ext (variant_inj h1.symm) (variant_inj h2.symm))

theorem date_inj {d d' : DateTime} (hd : WfDateTime d) (hd' : WfDateTime d')
    (h : d.debug = d'.debug) : d = d' := by
  unfold DateTime.debug at h
  injection h with h
  have h1 := C26_roundtrip_partial d hd
  rw [h, C26_roundtrip_partial d' hd'] at h1
  cases h1
  rfl

theorem rtc_fine (r : RtcData) : r.debug.Fine := by
  unfold RtcData.debug
  refine struct_fine (by decide) (by simp) ?_
  simp only [List.mem_cons, List.not_mem_nil, or_false]
  rintro f (rfl | rfl | rfl | rfl | rfl)
  · exact ⟨by dsimp only; decide, str_fine _⟩
  · exact ⟨by dsimp only; decide, variant_fine _⟩
  · exact ⟨by dsimp only; decide, bool_fine _⟩
  · exact ⟨by dsimp only; decide, variant_fine _⟩
  · exact ⟨by dsimp only; decide, variant_fine _⟩

theorem rtc_inj {r r' : RtcData} (hr : WfDateTime r.datetime) (hr' : WfDateTime r'.datetime)
    (h : r.debug = r'.debug) : r = r' := by
  have h := struct_inj h
  simp only [List.map_cons, List.map_nil, List.cons.injEq, and_true] at h
  obtain ⟨h1, h2, h3, h4, h5⟩ := h
  obtain ⟨_, _, _, _, _⟩ := r
  obtain ⟨_, _, _, _, _⟩ := r'
  have := date_inj hr hr' h1
  have := variant_inj h2
  have := bool_inj h3
  have := variant_inj h4
  have := variant_inj h5
  simp_all

theorem asr_fine (m : ArmingStatusReport) : m.debug.Fine := by
  unfold ArmingStatusReport.debug
  refine struct_fine (by decide) (by simp) ?_
  simp only [List.mem_cons, List.not_mem_nil, or_false]
  rintro f (rfl | rfl | rfl | rfl)
  · exact ⟨by dsimp only; decide, arr_fine variant_fine _⟩
  · exact ⟨by dsimp only; decide, arr_fine variant_fine _⟩
  · exact ⟨by dsimp only; decide, arr_fine variant_fine _⟩
  · exact ⟨by dsimp only; decide, num_fine _⟩

theorem asr_inj {m m' : ArmingStatusReport} (h : m.debug = m'.debug) : m = m' := by
  have h := struct_inj h
  simp only [List.map_cons, List.map_nil, List.cons.injEq, and_true] at h
  obtain ⟨h1, h2, h3, h4⟩ := h
  obtain ⟨_, _, _, _⟩ := m
  obtain ⟨_, _, _, _⟩ := m'
  have := arr_inj (fun _ _ => variant_inj) h1
  have := arr_inj (fun _ _ => variant_inj) h2
  have := arr_inj (fun _ _ => variant_inj) h3
  have := u8_inj h4
  simp_all

/-! ## The zones -/

theorem debugZones_ok : ∀ (i : Nat) {l : List ZoneStatus}, (∀ z ∈ l, WfZoneStatus z) →
    ∃ e, debugZones i l = .ok e ∧ Dbg.FineEntries e
  | _, [], _ => ⟨[], rfl, by rw [Dbg.FineEntries]; trivial⟩
  | i, s :: l, h => by
    obtain ⟨e, h1, h2⟩ := debugZones_ok (i + 1) fun z hz => h z (List.mem_cons_of_mem _ hz)
    rw [debugZones]
    split
    · exact ⟨e, h1, h2⟩
    · obtain ⟨x, h3, h4⟩ := zone_fine (h s List.mem_cons_self)
      rw [h3, h1]
      exact ⟨(i, x) :: e, rfl, by rw [Dbg.FineEntries]; exact ⟨h4, h2⟩⟩

/-- The keys shown are those of zones from number `i` on. -/
theorem debugZones_ge : ∀ (i : Nat) {l : List ZoneStatus} {e : List (Nat × Dbg)},
    debugZones i l = .ok e → ∀ x ∈ e, i ≤ x.1
  | _, [], e, h => by cases h; simp
  | i, s :: l, e, h => by
    rw [debugZones] at h
    split at h
    · intro x hx
      have := debugZones_ge (i + 1) h x hx
      omega
    · obtain ⟨x, _, h⟩ := P_bind_ok.mp h
      obtain ⟨r, h1, h⟩ := P_bind_ok.mp h
      cases h
      intro y hy
      rcases List.mem_cons.mp hy with rfl | hy
      · exact Nat.le_refl _
      · have := debugZones_ge (i + 1) h1 y hy
        omega

theorem debugZones_inj : ∀ (i : Nat) {l l' : List ZoneStatus} {e : List (Nat × Dbg)},
    l.length = l'.length → (∀ z ∈ l, WfZoneStatus z) → (∀ z ∈ l', WfZoneStatus z) →
    debugZones i l = .ok e → debugZones i l' = .ok e → l = l'
  | _, [], [], _, _, _, _, _, _ => rfl
  | _, [], _ :: _, _, hl, _, _, _, _ => by cases hl
  | _, _ :: _, [], _, hl, _, _, _, _ => by cases hl
  | i, s :: l, s' :: l', e, hl, hw, hw', h, h' => by
    have hl : l.length = l'.length := by simpa using hl
    have hw1 := fun z hz => hw z (List.mem_cons_of_mem _ hz)
    have hw2 := fun z hz => hw' z (List.mem_cons_of_mem _ hz)
    rw [debugZones] at h h'
    split at h
    · rename_i hs
      split at h'
      · rename_i hs'
        rw [debugZones_inj (i + 1) hl hw1 hw2 h h']
        obtain ⟨v⟩ := s
        obtain ⟨v'⟩ := s'
        have hs : v = 0 := hs
        have hs' : v' = 0 := hs'
        rw [hs, hs']
      · obtain ⟨x, _, h'⟩ := P_bind_ok.mp h'
        obtain ⟨r, _, h'⟩ := P_bind_ok.mp h'
        cases h'
        have : i + 1 ≤ i := debugZones_ge (i + 1) h (i, x) List.mem_cons_self
        omega
    · obtain ⟨x, h1, h⟩ := P_bind_ok.mp h
      obtain ⟨r, h2, h⟩ := P_bind_ok.mp h
      cases h
      split at h'
      · have : i + 1 ≤ i := debugZones_ge (i + 1) h' (i, x) List.mem_cons_self
        omega
      · obtain ⟨x', h3, h'⟩ := P_bind_ok.mp h'
        obtain ⟨r', h4, h'⟩ := P_bind_ok.mp h'
        injection h' with h'
        injection h' with h5 h6
        injection h5 with _ h5
        subst h5 h6
        rw [zone_inj (hw s List.mem_cons_self) (hw' s' List.mem_cons_self) h1 h3,
          debugZones_inj (i + 1) hl hw1 hw2 h2 h4]

/-! ## Messages -/

theorem single_fine {name k : String} {x : Dbg} (hn : IsWord (bs name)) (hk : IsWord (bs k))
    (hx : x.Fine) : (Dbg.struct name [(k, x)]).Fine :=
  struct_fine hn (by simp) fun f hf => by rw [List.mem_singleton.mp hf]; exact ⟨hk, hx⟩

theorem message_shown {m : Message} (hm : WfMessage m) : ∃ d, m.debug = .ok d ∧ d.Fine := by
  have unit : ∀ s : String, IsWord (bs s) → (Dbg.unit s).Fine := by
    intro s hs
    unfold Dbg.unit
    rw [Dbg.Fine]
    exact hs
  cases m with
  | armRequest m =>
    unfold Message.debug ArmRequest.debug
    dsimp only
    rw [code_ok hm.2]
    refine ⟨_, rfl, wrap_fine (by decide) (struct_fine (by decide) (by simp) ?_)⟩
    simp only [List.mem_cons, List.not_mem_nil, or_false]
    rintro f (rfl | rfl | rfl)
    · exact ⟨by dsimp only; decide, limited_fine _⟩
    · exact ⟨by dsimp only; decide, variant_fine _⟩
    · exact ⟨by dsimp only; decide, str_fine _⟩
  | armingStatusRequest => exact ⟨_, rfl, wrap_fine (by decide) (unit _ (by decide))⟩
  | armingStatusReport m => exact ⟨_, rfl, wrap_fine (by decide) (asr_fine m)⟩
  | sendTimeData m =>
    refine ⟨_, rfl, wrap_fine (by decide) (struct_fine (by decide) (by simp) ?_)⟩
    simp only [List.mem_cons, List.not_mem_nil, or_false]
    rintro f (rfl | rfl | rfl | rfl | rfl)
    · exact ⟨by dsimp only; decide, limited_fine _⟩
    · exact ⟨by dsimp only; decide, variant_fine _⟩
    · exact ⟨by dsimp only; decide, num_fine _⟩
    · exact ⟨by dsimp only; decide, num_fine _⟩
    · refine ⟨by dsimp only; decide, ?_⟩
      dsimp only
      split
      · exact unit _ (by decide)
      · exact wrap_fine (by decide) (variant_fine _)
  | sendCode m =>
    refine ⟨_, rfl, wrap_fine (by decide) (struct_fine (by decide) (by simp) ?_)⟩
    simp only [List.mem_cons, List.not_mem_nil, or_false]
    rintro f (rfl | rfl | rfl)
    · exact ⟨by dsimp only; decide, arr_fine (fun _ => num_fine _) _⟩
    · exact ⟨by dsimp only; decide, num_fine _⟩
    · exact ⟨by dsimp only; decide, limited_fine _⟩
  | rtcRequest => exact ⟨_, rfl, wrap_fine (by decide) (unit _ (by decide))⟩
  | rtcResponse r =>
    refine ⟨_, rfl, wrap_fine (by decide) (single_fine (by decide) (by decide) (rtc_fine r))⟩
  | stringDescriptionRequest m =>
    refine ⟨_, rfl, wrap_fine (by decide) (struct_fine (by decide) (by simp) ?_)⟩
    simp only [List.mem_cons, List.not_mem_nil, or_false]
    rintro f (rfl | rfl)
    · exact ⟨by dsimp only; decide, variant_fine _⟩
    · exact ⟨by dsimp only; decide, num_fine _⟩
  | stringDescriptionResponse m =>
    obtain ⟨x, hx, hf⟩ := text_ok hm
    unfold Message.debug StringDescriptionResponse.debug
    dsimp only
    rw [hx]
    refine ⟨_, rfl, wrap_fine (by decide) (struct_fine (by decide) (by simp) ?_)⟩
    simp only [List.mem_cons, List.not_mem_nil, or_false]
    rintro f (rfl | rfl | rfl)
    · exact ⟨by dsimp only; decide, variant_fine _⟩
    · exact ⟨by dsimp only; decide, num_fine _⟩
    · exact ⟨by dsimp only; decide, hf⟩
  | activateTask t =>
    refine ⟨_, rfl, wrap_fine (by decide) (single_fine (by decide) (by decide) (limited_fine t))⟩
  | taskChange t =>
    refine ⟨_, rfl, wrap_fine (by decide) (single_fine (by decide) (by decide) (limited_fine t))⟩
  | heartbeat r =>
    refine ⟨_, rfl, wrap_fine (by decide) (single_fine (by decide) (by decide) (rtc_fine r))⟩
  | zoneChange m =>
    obtain ⟨x, hx, hf⟩ := zone_fine hm.2
    unfold Message.debug ZoneChange.debug
    dsimp only
    rw [hx]
    refine ⟨_, rfl, wrap_fine (by decide) (struct_fine (by decide) (by simp) ?_)⟩
    simp only [List.mem_cons, List.not_mem_nil, or_false]
    rintro f (rfl | rfl)
    · exact ⟨by dsimp only; decide, limited_fine _⟩
    · exact ⟨by dsimp only; decide, hf⟩
  | zoneStatusRequest => exact ⟨_, rfl, wrap_fine (by decide) (unit _ (by decide))⟩
  | zoneStatusReport m =>
    obtain ⟨e, he, hf⟩ := debugZones_ok 1 hm
    unfold Message.debug ZoneStatusReport.debug
    dsimp only
    rw [he]
    refine ⟨_, rfl, wrap_fine (by decide) ?_⟩
    rw [Dbg.Fine]
    exact hf

/-- What kind of message it is. -/
def Message.rustName : Message → String
  | .armRequest _ => "ArmRequest"
  | .armingStatusRequest => "ArmingStatusRequest"
  | .armingStatusReport _ => "ArmingStatusReport"
  | .sendTimeData _ => "SendTimeData"
  | .sendCode _ => "SendCode"
  | .rtcRequest => "RtcRequest"
  | .rtcResponse _ => "RtcResponse"
  | .stringDescriptionRequest _ => "StringDescriptionRequest"
  | .stringDescriptionResponse _ => "StringDescriptionResponse"
  | .activateTask _ => "ActivateTask"
  | .taskChange _ => "TaskChange"
  | .heartbeat _ => "Heartbeat"
  | .zoneChange _ => "ZoneChange"
  | .zoneStatusRequest => "ZoneStatusRequest"
  | .zoneStatusReport _ => "ZoneStatusReport"

theorem debug_name {m : Message} {d : Dbg} (h : m.debug = .ok d) :
    ∃ x, d = .wrap m.rustName x := by
  cases m <;> (unfold Message.debug at h; dsimp only at h) <;>
    first
    | (cases h; exact ⟨_, rfl⟩)
    | (obtain ⟨x, _, h⟩ := P_bind_ok.mp h; cases h; exact ⟨x, rfl⟩)

/-- The same as a number. -/
def Message.rustIndex : Message → Fin 15
  | .armRequest _ => 0
  | .armingStatusRequest => 1
  | .armingStatusReport _ => 2
  | .sendTimeData _ => 3
  | .sendCode _ => 4
  | .rtcRequest => 5
  | .rtcResponse _ => 6
  | .stringDescriptionRequest _ => 7
  | .stringDescriptionResponse _ => 8
  | .activateTask _ => 9
  | .taskChange _ => 10
  | .heartbeat _ => 11
  | .zoneChange _ => 12
  | .zoneStatusRequest => 13
  | .zoneStatusReport _ => 14

/-- The names in order. -/
def rustNames : Vector String 15 := #v["ArmRequest", "ArmingStatusRequest", "ArmingStatusReport",
  "SendTimeData", "SendCode", "RtcRequest", "RtcResponse", "StringDescriptionRequest",
  "StringDescriptionResponse", "ActivateTask", "TaskChange", "Heartbeat", "ZoneChange",
  "ZoneStatusRequest", "ZoneStatusReport"]

theorem rustName_index (m : Message) : m.rustName = rustNames[m.rustIndex] := by
  cases m <;> rfl

theorem rustName_inj {m m' : Message} (h : bs m.rustName = bs m'.rustName) :
    m.rustIndex = m'.rustIndex := by
  have key : ∀ i j : Fin 15, bs rustNames[i] = bs rustNames[j] → i = j := by decide +kernel
  rw [rustName_index, rustName_index] at h
  exact key _ _ h

theorem message_told {m m' : Message} (hm : WfMessage m) (hm' : WfMessage m') {d : Dbg}
    (h : m.debug = .ok d) (h' : m'.debug = .ok d) : m = m' := by
  have hn : bs m.rustName = bs m'.rustName := by
    obtain ⟨x, rfl⟩ := debug_name h
    obtain ⟨y, h2⟩ := debug_name h'
    exact (wrap_inj h2).1
  replace hn := rustName_inj hn
  cases m with
  | armRequest m =>
    cases m' <;> first | (simp [Message.rustIndex] at hn; done) | skip
    rename_i m'
    unfold Message.debug ArmRequest.debug at h h'
    dsimp only at h h'
    rw [code_ok hm.2] at h
    rw [code_ok hm'.2] at h'
    cases h
    injection h' with h'
    have h := struct_inj (wrap_inj h').2
    simp only [List.map_cons, List.map_nil, List.cons.injEq, and_true] at h
    obtain ⟨h1, h2, h3⟩ := h
    obtain ⟨_, _, ⟨_⟩⟩ := m
    obtain ⟨_, _, ⟨_⟩⟩ := m'
    have := limited_inj h1
    have := variant_inj h2
    injection h3 with h3
    have := Vector.toList_inj.mp h3
    simp_all
  | armingStatusRequest =>
    cases m' <;> first | rfl | (simp [Message.rustIndex] at hn)
  | armingStatusReport m =>
    cases m' <;> first | (simp [Message.rustIndex] at hn; done) | skip
    cases h
    injection h' with h'
    rw [asr_inj (wrap_inj h').2]
  | sendTimeData m =>
    cases m' <;> first | (simp [Message.rustIndex] at hn; done) | skip
    rename_i m'
    cases h
    injection h' with h'
    have h := struct_inj (wrap_inj h').2
    simp only [List.map_cons, List.map_nil, List.cons.injEq, and_true] at h
    obtain ⟨h1, h2, h3, h4, h5⟩ := h
    obtain ⟨_, _, _, _, a⟩ := m
    obtain ⟨_, _, _, _, a'⟩ := m'
    have := limited_inj h1
    have := variant_inj h2
    have := u8_inj h3
    have := u8_inj h4
    have : a' = a := by
      dsimp only at h5
      cases a with
      | none =>
        cases a' with
        | none => rfl
        | some _ => cases h5
      | some _ =>
        cases a' with
        | none => cases h5
        | some _ => rw [variant_inj (wrap_inj h5).2]
    simp_all
  | sendCode m =>
    cases m' <;> first | (simp [Message.rustIndex] at hn; done) | skip
    rename_i m'
    cases h
    injection h' with h'
    have h := struct_inj (wrap_inj h').2
    simp only [List.map_cons, List.map_nil, List.cons.injEq, and_true] at h
    obtain ⟨h1, h2, h3⟩ := h
    obtain ⟨_, _, _⟩ := m
    obtain ⟨_, _, _⟩ := m'
    have := arr_inj (fun _ _ => u8_inj) h1
    have := u8_inj h2
    have := limited_inj h3
    simp_all
  | rtcRequest =>
    cases m' <;> first | rfl | (simp [Message.rustIndex] at hn)
  | rtcResponse r =>
    cases m' <;> first | (simp [Message.rustIndex] at hn; done) | skip
    cases h
    injection h' with h'
    have h := struct_inj (wrap_inj h').2
    simp only [List.map_cons, List.map_nil, List.cons.injEq, and_true] at h
    rw [rtc_inj hm' hm h]
  | stringDescriptionRequest m =>
    cases m' <;> first | (simp [Message.rustIndex] at hn; done) | skip
    rename_i m'
    cases h
    injection h' with h'
    have h := struct_inj (wrap_inj h').2
    simp only [List.map_cons, List.map_nil, List.cons.injEq, and_true] at h
    obtain ⟨h1, h2⟩ := h
    obtain ⟨_, _⟩ := m
    obtain ⟨_, _⟩ := m'
    have := variant_inj h1
    have := u8_inj h2
    simp_all
  | stringDescriptionResponse m =>
    cases m' <;> first | (simp [Message.rustIndex] at hn; done) | skip
    rename_i m'
    obtain ⟨x, hx, _⟩ := text_ok hm
    obtain ⟨x', hx', _⟩ := text_ok hm'
    unfold Message.debug StringDescriptionResponse.debug at h h'
    dsimp only at h h'
    rw [hx] at h
    rw [hx'] at h'
    cases h
    injection h' with h'
    have h := struct_inj (wrap_inj h').2
    simp only [List.map_cons, List.map_nil, List.cons.injEq, and_true] at h
    obtain ⟨h1, h2, rfl⟩ := h
    have h3 := text_inj hm hm' hx hx'
    obtain ⟨_, _, _⟩ := m
    obtain ⟨_, _, _⟩ := m'
    have := variant_inj h1
    have := u8_inj h2
    simp_all
  | activateTask t =>
    cases m' <;> first | (simp [Message.rustIndex] at hn; done) | skip
    cases h
    injection h' with h'
    have h := struct_inj (wrap_inj h').2
    simp only [List.map_cons, List.map_nil, List.cons.injEq, and_true] at h
    rw [limited_inj h]
  | taskChange t =>
    cases m' <;> first | (simp [Message.rustIndex] at hn; done) | skip
    cases h
    injection h' with h'
    have h := struct_inj (wrap_inj h').2
    simp only [List.map_cons, List.map_nil, List.cons.injEq, and_true] at h
    rw [limited_inj h]
  | heartbeat r =>
    cases m' <;> first | (simp [Message.rustIndex] at hn; done) | skip
    cases h
    injection h' with h'
    have h := struct_inj (wrap_inj h').2
    simp only [List.map_cons, List.map_nil, List.cons.injEq, and_true] at h
    rw [rtc_inj hm' hm h]
  | zoneChange m =>
    cases m' <;> first | (simp [Message.rustIndex] at hn; done) | skip
    rename_i m'
    obtain ⟨x, hx, _⟩ := zone_fine hm.2
    obtain ⟨x', hx', _⟩ := zone_fine hm'.2
    unfold Message.debug ZoneChange.debug at h h'
    dsimp only at h h'
    rw [hx] at h
    rw [hx'] at h'
    cases h
    injection h' with h'
    have h := struct_inj (wrap_inj h').2
    simp only [List.map_cons, List.map_nil, List.cons.injEq, and_true] at h
    obtain ⟨h1, rfl⟩ := h
    have h3 := zone_inj hm.2 hm'.2 hx hx'
    obtain ⟨_, _⟩ := m
    obtain ⟨_, _⟩ := m'
    have := limited_inj h1
    simp_all
  | zoneStatusRequest =>
    cases m' <;> first | rfl | (simp [Message.rustIndex] at hn)
  | zoneStatusReport m =>
    cases m' <;> first | (simp [Message.rustIndex] at hn; done) | skip
    rename_i m'
    obtain ⟨e, he, _⟩ := debugZones_ok 1 hm
    obtain ⟨e', he', _⟩ := debugZones_ok 1 hm'
    unfold Message.debug ZoneStatusReport.debug at h h'
    dsimp only at h h'
    rw [he] at h
    rw [he'] at h'
    cases h
    injection h' with h'
    have h := (wrap_inj h').2
    injection h with h
    subst h
    obtain ⟨z⟩ := m
    obtain ⟨z'⟩ := m'
    have := debugZones_inj 1 (by simp) hm hm' he he'
    have hz : z = z' := Vector.toList_inj.mp this
    rw [hz]

end Elk
