import Verif.Lemmas.Utf8
import Verif.Spec.Main
/-!
# Lemmas about the reading of configuration files
-/

namespace Elk
open Spec Props

theorem says_fun {raw t t' : Bytes} (h : Rfc.Says raw t) (h' : Rfc.Says raw t') : t = t' := by
  have := text_iff.mpr h
  rw [text_iff.mpr h'] at this
  cases this
  rfl

/-- Names that are texts, other than this one. -/
theorem names_other {k : String} {l : List (Bytes × Doc)} :
    (l.all (fun e => (Doc.text e.1).isSome) = true ∧
      l.filter (fun e => Doc.text e.1 == some (bs k)) = []) ↔
    ∀ e ∈ l, ∃ t, Rfc.Says e.1 t ∧ t ≠ bs k := by
  rw [List.all_eq_true, List.filter_eq_nil_iff]
  constructor
  · rintro ⟨h1, h2⟩ e he
    obtain ⟨t, ht⟩ := Option.isSome_iff_exists.mp (h1 e he)
    refine ⟨t, text_iff.mp ht, ?_⟩
    rintro rfl
    exact h2 e he (by rw [ht]; simp)
  · intro h
    refine ⟨?_, ?_⟩
    · intro e he
      obtain ⟨t, ht, _⟩ := h e he
      rw [text_iff.mpr ht]
      rfl
    · intro e he
      obtain ⟨t, ht, hne⟩ := h e he
      rw [text_iff.mpr ht]
      simpa using hne

theorem member_ok {fields : List String} {k : String} {d : Doc} {o : Option Doc} :
    d.member fields k = .ok o ↔
      (o = none ∧ NoField d k) ∨ ∃ v, o = some v ∧ HasField fields d k v := by
  cases d with
  | obj l =>
    unfold Doc.member
    dsimp only
    constructor
    · intro h
      split at h
      · rename_i hall
        split at h
        · rename_i hf
          cases h
          exact .inl ⟨rfl, .mk (names_other.mp ⟨hall, hf⟩)⟩
        · rename_i e hf
          cases h
          refine .inr ⟨_, rfl, ?_⟩
          rw [List.filter_eq_cons_iff] at hf
          obtain ⟨a, b, rfl, h1, h2, h3⟩ := hf
          rw [List.all_append, Bool.and_eq_true, List.all_cons, Bool.and_eq_true] at hall
          refine .named (raw := e.1) (v := e.2) a b (text_iff.mp (by simpa using h2)) ?_ ?_
          · exact names_other.mp ⟨hall.1, List.filter_eq_nil_iff.mpr h1⟩
          · exact names_other.mp ⟨hall.2.2, h3⟩
        · cases h
      · cases h
    · rintro (⟨rfl, h⟩ | ⟨v, rfl, h⟩)
      · cases h with
        | mk h =>
          obtain ⟨h1, h2⟩ := names_other.mpr h
          rw [if_pos h1, h2]
      · cases h with
        | @named k raw v a b hk h1 h2 =>
          obtain ⟨g1, g2⟩ := names_other.mpr h1
          obtain ⟨g3, g4⟩ := names_other.mpr h2
          rw [if_pos (by rw [List.all_append, g1, List.all_cons, g3, text_iff.mpr hk]; rfl),
            List.filter_append, g2, List.filter_cons_of_pos (by rw [text_iff.mpr hk]; simp), g4]
          rfl
  | arr l =>
    unfold Doc.member
    dsimp only
    constructor
    · intro h
      split at h
      · rename_i hl
        split at h
        · rename_i v hv
          cases h
          exact .inr ⟨v, rfl, .listed hl hv⟩
        · cases h
      · cases h
    · rintro (⟨_, h⟩ | ⟨v, rfl, h⟩)
      · cases h
      · cases h with
        | listed hl hv => rw [if_pos hl, hv]
  | _ =>
    unfold Doc.member
    constructor
    · intro h; cases h
    · rintro (⟨_, h⟩ | ⟨_, _, h⟩) <;> cases h

theorem required_ok {α : Type} {f : Doc → R α} {fields : List String} {k : String} {j : Doc} {a : α} :
    j.required f fields k = .ok a ↔ ∃ v, HasField fields j k v ∧ f v = .ok a := by
  unfold Doc.required
  rw [R_bind_ok]
  simp only [member_ok]
  constructor
  · rintro ⟨o, ⟨rfl, _⟩ | ⟨v, rfl, h⟩, h2⟩
    · cases h2
    · exact ⟨v, h, h2⟩
  · rintro ⟨v, h1, h2⟩
    exact ⟨some v, .inr ⟨v, rfl, h1⟩, h2⟩

theorem defaulted_ok {α : Type} {f : Doc → R α} {d : α} {fields : List String} {k : String} {j : Doc}
    {a : α} : j.defaulted f d fields k = .ok a ↔
      (∃ v, HasField fields j k v ∧ f v = .ok a) ∨ (NoField j k ∧ a = d) := by
  unfold Doc.defaulted
  rw [R_bind_ok]
  simp only [member_ok]
  constructor
  · rintro ⟨o, ⟨rfl, h⟩ | ⟨v, rfl, h⟩, h2⟩
    · cases h2; exact .inr ⟨h, rfl⟩
    · exact .inl ⟨v, h, h2⟩
  · rintro (⟨v, h1, h2⟩ | ⟨h, rfl⟩)
    · exact ⟨some v, .inr ⟨v, rfl, h1⟩, h2⟩
    · exact ⟨none, .inl ⟨rfl, h⟩, rfl⟩

theorem toStr_ok {j : Doc} {t : Bytes} : j.toStr = .ok t ↔ ∃ raw, j = .str raw ∧ Rfc.Says raw t := by
  cases j with
  | str raw =>
    unfold Doc.toStr
    dsimp only
    rw [okOr_ok, text_iff]
    constructor
    · intro h; exact ⟨raw, rfl, h⟩
    · rintro ⟨_, h, h'⟩; cases h; exact h'
  | _ => simp [Doc.toStr, errR]

/-- A field that is read as a text. -/
theorem textField_ok {fields : List String} {k : String} {j : Doc} {t : Bytes} :
    (∃ v, HasField fields j k v ∧ v.toStr = .ok t) ↔ TextField fields j k t := by
  simp only [toStr_ok]
  constructor
  · rintro ⟨v, h, raw, rfl, h'⟩; exact ⟨raw, h, h'⟩
  · rintro ⟨raw, h, h'⟩; exact ⟨_, h, raw, rfl, h'⟩

theorem toU16_ok {j : Doc} {n : UInt16} : j.toU16 = .ok n ↔ j = .nat n.toNat := by
  cases j with
  | nat m =>
    unfold Doc.toU16
    dsimp only
    constructor
    · intro h
      split at h
      · rename_i hm
        cases h
        rw [UInt16.toNat_ofNat_of_lt' (by simpa [UInt16.size] using hm)]
      · cases h
    · intro h
      injection h with h
      rw [h, if_pos n.toNat_lt]
      simp
  | _ => simp [Doc.toU16, errR]

theorem toU32_ok {j : Doc} {n : UInt32} : j.toU32 = .ok n ↔ j = .nat n.toNat := by
  cases j with
  | nat m =>
    unfold Doc.toU32
    dsimp only
    constructor
    · intro h
      split at h
      · rename_i hm
        cases h
        rw [UInt32.toNat_ofNat_of_lt' (by simpa [UInt32.size] using hm)]
      · cases h
    · intro h
      injection h with h
      rw [h, if_pos n.toNat_lt]
      simp
  | _ => simp [Doc.toU32, errR]

theorem optional_ok {fields : List String} {k : String} {j : Doc} {o : Option Bytes} :
    j.optional Doc.toStr fields k = .ok o ↔ OptText fields j k o := by
  unfold Doc.optional
  rw [R_bind_ok]
  simp only [member_ok]
  constructor
  · rintro ⟨m, ⟨rfl, h⟩ | ⟨v, rfl, h⟩, h2⟩
    · cases h2; exact .missing h
    · revert h2
      split
      · rename_i he; cases he
      · rename_i he; cases he; intro h2; cases h2; exact .null h
      · rename_i he
        cases he
        intro h2
        rw [R_bind_ok] at h2
        obtain ⟨t, h3, h4⟩ := h2
        cases h4
        exact .given t (textField_ok.mp ⟨_, h, h3⟩)
  · intro h
    cases h with
    | given t h =>
      obtain ⟨raw, h, h'⟩ := h
      refine ⟨_, .inr ⟨_, rfl, h⟩, ?_⟩
      dsimp only
      rw [toStr_ok.mpr ⟨raw, rfl, h'⟩]
      rfl
    | missing h => exact ⟨_, .inl ⟨rfl, h⟩, rfl⟩
    | null h => exact ⟨_, .inr ⟨_, rfl, h⟩, rfl⟩

theorem toKey_ok {k : Bytes} {n : UInt8} : Doc.toKey k = .ok n ↔ k = decStr n.toNat := by
  unfold Doc.toKey
  rw [okOr_ok, Option.map_eq_some_iff]
  constructor
  · rintro ⟨m, h1, rfl⟩
    have h2 := List.find?_some h1
    have h3 := List.mem_range.mp (List.mem_of_find?_eq_some h1)
    rw [UInt8.toNat_ofNat_of_lt' (by simpa [UInt8.size] using h3)]
    exact (beq_iff_eq.mp h2).symm
  · rintro rfl
    refine ⟨n.toNat, ?_, by simp⟩
    cases h : (List.range 256).find? fun m => decStr m == decStr n.toNat with
    | none =>
      have := List.find?_eq_none.mp h n.toNat (List.mem_range.mpr n.toNat_lt)
      simp at this
    | some m =>
      have h2 := List.find?_some h
      rw [decStr_inj (beq_iff_eq.mp h2)]

theorem mem_insertKey {β : Type} {k : UInt8} {v : β} {m : List (UInt8 × β)}
    (hm : (m.map (·.1)).Nodup) {e : UInt8 × β} :
    e ∈ insertKey k v m ↔ e = (k, v) ∨ (e.1 ≠ k ∧ e ∈ m) := by
  induction m with
  | nil => simp [insertKey]
  | cons c m ih =>
    rw [List.map_cons, List.nodup_cons] at hm
    unfold insertKey
    split
    · rename_i hc
      rw [List.mem_cons, List.mem_cons]
      constructor
      · rintro (h | h)
        · exact .inl h
        · refine .inr ⟨?_, .inr h⟩
          intro he
          exact hm.1 (by rw [hc, ← he]; exact List.mem_map_of_mem h)
      · rintro (h | ⟨h1, rfl | h⟩)
        · exact .inl h
        · exact absurd hc h1
        · exact .inr h
    · rename_i hc
      rw [List.mem_cons, List.mem_cons, ih hm.2]
      constructor
      · rintro (rfl | h | ⟨h1, h2⟩)
        · exact .inr ⟨hc, .inl rfl⟩
        · exact .inl h
        · exact .inr ⟨h1, .inr h2⟩
      · rintro (h | ⟨h1, h | h⟩)
        · exact .inr (.inl h)
        · exact .inl h
        · exact .inr (.inr ⟨h1, h⟩)

theorem insertKey_keys {β : Type} {k : UInt8} {v : β} {m : List (UInt8 × β)}
    (hm : (m.map (·.1)).Nodup) : ((insertKey k v m).map (·.1)).Nodup := by
  induction m with
  | nil => simp [insertKey]
  | cons c m ih =>
    have hm' := hm
    rw [List.map_cons, List.nodup_cons] at hm
    unfold insertKey
    split
    · rename_i hc
      rw [List.map_cons, ← hc]
      exact hm'
    · rename_i hc
      rw [List.map_cons, List.nodup_cons]
      refine ⟨?_, ih hm.2⟩
      intro h
      obtain ⟨e, he, h1⟩ := List.mem_map.mp h
      rcases (mem_insertKey hm.2).mp he with rfl | ⟨_, h2⟩
      · exact hc h1.symm
      · exact hm.1 (by rw [← h1]; exact List.mem_map_of_mem h2)

/-- What the map contains after entries are read into it. -/
theorem readEntries_ok {β : Type} {f : Doc → R β} {rel : Doc → β → Prop}
    (hf : ∀ j v, f j = .ok v ↔ rel j v) {l : List (Bytes × Doc)} :
    ∀ {m0 m : List (UInt8 × β)}, (m0.map (·.1)).Nodup → readEntries f l m0 = .ok m →
    (m.map (·.1)).Nodup ∧ (∀ e ∈ l, ∃ n v, e.1 = decStr (UInt8.toNat n) ∧ rel e.2 v) ∧
    ∀ n v, (n, v) ∈ m ↔
      (∃ before x after, l = before ++ (decStr n.toNat, x) :: after ∧ rel x v ∧
        ∀ e ∈ after, e.1 ≠ decStr n.toNat) ∨
      ((∀ e ∈ l, e.1 ≠ decStr n.toNat) ∧ (n, v) ∈ m0) := by
  induction l with
  | nil =>
    intro m0 m h0 h
    cases h
    refine ⟨h0, (fun _ h => by cases h), ?_⟩
    intro n v
    constructor
    · intro h; exact .inr ⟨(fun _ h => by cases h), h⟩
    · rintro (⟨b, x, a, h, _⟩ | ⟨_, h⟩)
      · simp at h
      · exact h
  | cons c l ih =>
    intro m0 m h0 h
    obtain ⟨k, j⟩ := c
    have e : readEntries f ((k, j) :: l) m0 = (Doc.toKey k >>= fun key => f j >>= fun v =>
      readEntries f l (insertKey key v m0)) := rfl
    rw [e, R_bind_ok] at h
    obtain ⟨key, h1, h2⟩ := h
    rw [R_bind_ok] at h2
    obtain ⟨w, h3, h4⟩ := h2
    have hk := toKey_ok.mp h1
    subst hk
    obtain ⟨i1, i2, i3⟩ := ih (insertKey_keys h0) h4
    refine ⟨i1, ?_, ?_⟩
    · intro e he
      rcases List.mem_cons.mp he with rfl | he
      · exact ⟨key, w, rfl, (hf _ _).mp h3⟩
      · exact i2 e he
    · intro n v
      rw [i3 n v]
      constructor
      · rintro (⟨b, x, a, rfl, hx, ha⟩ | ⟨hno, hin⟩)
        · exact .inl ⟨_ :: b, x, a, rfl, hx, ha⟩
        · rcases (mem_insertKey h0).mp hin with he | ⟨hne, hin⟩
          · cases he
            exact .inl ⟨[], j, l, rfl, (hf _ _).mp h3, hno⟩
          · refine .inr ⟨?_, hin⟩
            intro e he
            rcases List.mem_cons.mp he with rfl | he
            · exact fun h => hne (UInt8.toNat_inj.mp (decStr_inj h).symm)
            · exact hno e he
      · rintro (⟨b, x, a, hl, hx, ha⟩ | ⟨hno, hin⟩)
        · cases b with
          | nil =>
            rw [List.nil_append] at hl
            injection hl with hl1 hl2
            subst hl2
            injection hl1 with hl1 hl3
            subst hl3
            have hn := UInt8.toNat_inj.mp (decStr_inj hl1)
            subst hn
            have : w = v := by
              have := (hf _ _).mpr hx
              rw [h3] at this
              cases this
              rfl
            subst this
            exact .inr ⟨ha, (mem_insertKey h0).mpr (.inl rfl)⟩
          | cons c b =>
            rw [List.cons_append] at hl
            injection hl with _ hl
            exact .inl ⟨b, x, a, hl, hx, ha⟩
        · refine .inr ⟨fun e he => hno e (List.mem_cons_of_mem _ he), (mem_insertKey h0).mpr ?_⟩
          refine .inr ⟨?_, hin⟩
          intro hne
          exact hno _ List.mem_cons_self (by rw [show n = key from hne])

theorem readEntries_total {β : Type} {f : Doc → R β} {rel : Doc → β → Prop}
    (hf : ∀ j v, f j = .ok v ↔ rel j v) {l : List (Bytes × Doc)} :
    ∀ {m0 : List (UInt8 × β)},
    (∀ e ∈ l, ∃ n v, e.1 = decStr (UInt8.toNat n) ∧ rel e.2 v) → ∃ m, readEntries f l m0 = .ok m := by
  induction l with
  | nil => intro m0 _; exact ⟨m0, rfl⟩
  | cons c l ih =>
    intro m0 h
    obtain ⟨k, j⟩ := c
    obtain ⟨n, v, h1, h2⟩ := h _ List.mem_cons_self
    have h1 : k = decStr n.toNat := h1
    obtain ⟨m, hm⟩ := ih (m0 := insertKey n v m0) fun e he => h e (List.mem_cons_of_mem _ he)
    refine ⟨m, ?_⟩
    have e : readEntries f ((k, j) :: l) m0 = (Doc.toKey k >>= fun key => f j >>= fun v =>
      readEntries f l (insertKey key v m0)) := rfl
    rw [e, R_bind_ok]
    refine ⟨n, toKey_ok.mpr h1, ?_⟩
    rw [R_bind_ok]
    exact ⟨v, (hf _ _).mpr h2, hm⟩

theorem readMap_ok {β : Type} {f : Doc → R β} {rel : Doc → β → Prop}
    (hf : ∀ j v, f j = .ok v ↔ rel j v) {j : Doc} {m : List (UInt8 × β)}
    (h : readMap f j = .ok m) : MapOf rel j m := by
  cases j with
  | obj l =>
    obtain ⟨h1, h2, h3⟩ := readEntries_ok hf (m0 := []) (by simp) h
    refine ⟨h1, l, rfl, h2, ?_⟩
    intro n v
    rw [h3]
    simp
  | _ => cases h

/-- Two lists without duplicate keys and the same elements are permutations of each other. -/
theorem perm_of_mem {β : Type} {l m : List (UInt8 × β)} (hl : (l.map (·.1)).Nodup)
    (hm : (m.map (·.1)).Nodup) (h : ∀ n v, (n, v) ∈ l ↔ (n, v) ∈ m) : l.Perm m := by
  have nd : ∀ {l : List (UInt8 × β)}, (l.map (·.1)).Nodup → l.Nodup := by
    intro l hl
    exact (List.pairwise_map.mp hl).imp fun h he => h (by rw [he])
  exact (List.perm_ext_iff_of_nodup (nd hl) (nd hm)).mpr fun e => h e.1 e.2

theorem readMap_total {β : Type} {f : Doc → R β} {rel : Doc → β → Prop}
    (hf : ∀ j v, f j = .ok v ↔ rel j v) {j : Doc} {m : List (UInt8 × β)}
    (h : MapOf rel j m) : ∃ m', readMap f j = .ok m' ∧ m'.Perm m := by
  obtain ⟨hk, l, rfl, h1, h2⟩ := h
  obtain ⟨m', hm'⟩ := readEntries_total hf (m0 := []) h1
  refine ⟨m', hm', ?_⟩
  obtain ⟨hk', l', hl', _, h3⟩ := readMap_ok (j := .obj l) hf hm'
  cases hl'
  exact perm_of_mem hk' hk fun n v => (h3 n v).trans (h2 n v).symm

theorem areaCfg_ok (j : Doc) (a : AreaCfg) : AreaCfg.deserialize j = .ok a ↔ AreaDoc j a := by
  unfold AreaCfg.deserialize AreaDoc
  simp only [R_bind_ok, required_ok, textField_ok]
  constructor
  · rintro ⟨n, h, h2⟩; cases h2; exact h
  · intro h; exact ⟨a.name, h, rfl⟩

theorem zoneCfg_ok (j : Doc) (z : ZoneCfg) : ZoneCfg.deserialize j = .ok z ↔ ZoneDoc j z := by
  unfold ZoneCfg.deserialize ZoneDoc
  simp only [R_bind_ok, required_ok, textField_ok]
  constructor
  · rintro ⟨n, h, c, h', h2⟩; cases h2; exact ⟨h, h'⟩
  · rintro ⟨h, h'⟩; exact ⟨_, h, _, h', rfl⟩

end Elk
