import Verif.Ucode.Layout
/-!
# C35, C36: layout of a microcode ROM, and validation of its fields

For any list of fields and any `field_map`, not only those of the default microcode.
-/

namespace Sentinel.Ucode

/-! ## Dictionaries -/

section Dict
variable {d e : List (Name × FShape)} {k k' : Name} {v : FShape}

theorem dictSet_new (h : k ∉ d.map Prod.fst) : dictSet d k v = d ++ [(k, v)] := by
  induction d with
  | nil => rfl
  | cons p r ih =>
    obtain ⟨a, b⟩ := p
    simp only [List.map_cons, List.mem_cons, not_or] at h
    simp only [dictSet, if_neg (Ne.symm h.1), ih h.2, List.cons_append]

theorem mem_keys_set : k' ∈ (dictSet d k v).map Prod.fst ↔ k' ∈ d.map Prod.fst ∨ k' = k := by
  induction d with
  | nil => simp [dictSet]
  | cons p r ih =>
    obtain ⟨a, b⟩ := p
    unfold dictSet
    split
    · next h => subst h; simp only [List.map_cons, List.mem_cons]; tauto
    · simp only [List.map_cons, List.mem_cons, ih]; tauto

theorem totalWidth_append : totalWidth (d ++ e) = totalWidth d + totalWidth e := by
  induction d with
  | nil => simp [totalWidth]
  | cons p r ih => obtain ⟨a, b⟩ := p; simp only [List.cons_append, totalWidth, ih]; omega

theorem member_append_left (h : k ∈ d.map Prod.fst) : member (d ++ e) k = member d k := by
  induction d with
  | nil => simp at h
  | cons p r ih =>
    obtain ⟨a, b⟩ := p
    simp only [List.cons_append, member]
    split
    · rfl
    · next hne =>
      simp only [List.map_cons, List.mem_cons] at h
      rw [ih (h.resolve_left (Ne.symm hne))]

theorem member_append_right (h : k ∉ d.map Prod.fst) :
    member (d ++ e) k = (member e k).map fun p => (totalWidth d + p.1, p.2) := by
  induction d with
  | nil => simp [totalWidth]
  | cons p r ih =>
    obtain ⟨a, b⟩ := p
    simp only [List.map_cons, List.mem_cons, not_or] at h
    simp only [List.cons_append, member, if_neg (Ne.symm h.1), ih h.2, Option.map_map, totalWidth]
    congr 1
    funext q
    simp only [Function.comp, Nat.add_assoc]

theorem member_none : member d k = none ↔ k ∉ d.map Prod.fst := by
  induction d with
  | nil => simp [member]
  | cons p r ih =>
    obtain ⟨a, b⟩ := p
    simp only [member, List.map_cons, List.mem_cons, not_or]
    split
    · next h => simp [h]
    · next h => simp only [Option.map_eq_none_iff, ih]; exact ⟨fun x => ⟨Ne.symm h, x⟩, fun x => x.2⟩

/-- Width of the padding member, 0 if there is none. -/
def padWidth (d : List (Name × FShape)) : Nat := ((d.lookup paddingName).map FShape.width).getD 0

theorem totalWidth_pad : totalWidth (dictSet d paddingName v) + padWidth d = totalWidth d + v.width := by
  induction d with
  | nil => simp [dictSet, padWidth, totalWidth]
  | cons p r ih =>
    obtain ⟨a, b⟩ := p
    unfold dictSet padWidth
    by_cases h : a = paddingName
    · subst h; simp only [if_true, List.lookup_cons, beq_self_eq_true, totalWidth, Option.map_some, Option.getD_some]; omega
    · have hb : (paddingName == a) = false := by simpa using Ne.symm h
      simp only [if_neg h, List.lookup_cons, hb, totalWidth]
      unfold padWidth at ih
      omega

theorem padWidth_set : padWidth (dictSet d paddingName v) = v.width := by
  induction d with
  | nil => simp [dictSet, padWidth]
  | cons p r ih =>
    obtain ⟨a, b⟩ := p
    unfold dictSet
    by_cases h : a = paddingName
    · subst h; simp [padWidth]
    · have hb : (paddingName == a) = false := by simpa using Ne.symm h
      unfold padWidth at ih ⊢
      simp only [if_neg h, List.lookup_cons, hb, ih]

theorem padWidth_append (h : k ≠ paddingName) : padWidth (d ++ [(k, v)]) = padWidth d := by
  induction d with
  | nil =>
    have hb : (paddingName == k) = false := by simpa using Ne.symm h
    simp [padWidth, List.lookup_cons, hb]
  | cons p r ih =>
    obtain ⟨a, b⟩ := p
    unfold padWidth at ih ⊢
    simp only [List.cons_append, List.lookup_cons]
    split
    · rfl
    · exact ih

end Dict

/-! ## C36 -/

/-- What the source says about a field agrees with the class `c` in `field_map`. -/
def Agrees (c : FShape) (f : UField) : Prop :=
  c.width = f.width ∧
  (isEnum f = true → ∃ ms, c = .enum f.width ms ∧
    -- every name of the source is a member of the class, with the same value
    (∀ kv ∈ f.enum, ms.lookup (upper kv.1) = some kv.2) ∧
    -- every member of the class that is not an alias is a name of the source, with the same value
    ∀ kv ∈ canonical ms [], f.enum.lookup (lower kv.1) = some kv.2)

theorem checkField_iff {fm : List (Name × FShape)} {f : UField} {c : FShape} :
    checkField fm f = some c ↔ fm.lookup f.name = some c ∧ Agrees c f := by
  unfold checkField Agrees
  cases hl : fm.lookup f.name with
  | none => simp [checkEnum, checkShape, hl]
  | some c' =>
    cases he : isEnum f
    · simp only [checkShape, hl, Bool.false_eq_true, if_false, Option.bind_some, ne_eq, ite_not,
        Option.ite_none_right_eq_some, Option.some.injEq, false_implies, and_true]
      constructor
      · rintro ⟨h, rfl⟩; exact ⟨rfl, h⟩
      · rintro ⟨rfl, h⟩; exact ⟨h, rfl⟩
    · simp only [checkEnum, hl, if_true, Option.bind_some, Option.some.injEq]
      cases c' with
      | unsigned w =>
        simp only [reduceCtorEq, false_iff, not_and]
        rintro rfl _ h
        obtain ⟨ms, h, -⟩ := h trivial
        cases h
      | enum w ms =>
        simp only [enumMatches, Bool.and_eq_true, List.all_eq_true, decide_eq_true_eq, ne_eq, ite_not]
        constructor
        · intro h
          split at h
          · next hm =>
            split at h
            · next hw =>
              simp only [Option.some.injEq] at h
              exact ⟨h, by rw [← h]; exact hw, fun _ => ⟨ms, by rw [← h, ← hw], hm⟩⟩
            · cases h
          · cases h
        · rintro ⟨rfl, hw, h⟩
          obtain ⟨ms', h1, h2⟩ := h trivial
          cases h1
          rw [if_pos h2, if_pos rfl]

theorem layoutLoop_checks {fm : List (Name × FShape)} {fs : List UField} {d L : List (Name × FShape)}
    (h : layoutLoop fm fs d = some L) : ∀ f ∈ fs, ∃ c, checkField fm f = some c := by
  induction fs generalizing d with
  | nil => intro f hf; cases hf
  | cons f r ih =>
    cases r with
    | nil =>
      simp only [layoutLoop, Option.map_eq_some_iff] at h
      obtain ⟨c, hc, -⟩ := h
      intro f' hf'; simp only [List.mem_singleton] at hf'; subst hf'; exact ⟨c, hc⟩
    | cons g r =>
      simp only [layoutLoop, Option.bind_eq_some_iff] at h
      obtain ⟨c, hc, h⟩ := h
      intro f' hf'
      rcases List.mem_cons.1 hf' with rfl | hf'
      · exact ⟨c, hc⟩
      · split at h
        · split at h
          · cases h
          · exact ih h f' hf'
        · exact ih h f' hf'

/-- **C36.** If a microcode source is accepted, each of its fields is in `field_map`, and agrees with
its class: same width, and for an enum the same members with the same values. -/
theorem C36_accepted {fm : List (Name × FShape)} {fs : List UField} {L : List (Name × FShape)}
    (h : createLayout fm fs = some L) : ∀ f ∈ fs, ∃ c, fm.lookup f.name = some c ∧ Agrees c f := by
  intro f hf
  obtain ⟨c, hc⟩ := layoutLoop_checks h f hf
  exact ⟨c, checkField_iff.1 hc⟩

/-! ## C35 -/

/-- What m5meta guarantees of the fields of a source: names are distinct, and fields are in order and
do not overlap; and what the code relies on: the first field is at the origin, and no field is called
`_padding_0`. -/
structure Ordered (fs : List UField) : Prop where
  nodup : (fs.map UField.name).Nodup
  notPadding : paddingName ∉ fs.map UField.name
  first : ∀ f, fs.head? = some f → f.origin = 0
  order : fs.IsChain fun f g => f.origin + f.width ≤ g.origin

/-- Number of gaps between fields. -/
def gaps : List UField → Nat
  | f :: g :: r => (if f.origin + f.width = g.origin then 0 else 1) + gaps (g :: r)
  | _ => 0

/-- Every field is a member of the layout, at its declared origin and with its declared width. -/
def Placed (L : List (Name × FShape)) (fs : List UField) : Prop :=
  ∀ f ∈ fs, ∃ c, member L f.name = some (f.origin, c) ∧ c.width = f.width

theorem layoutLoop_placed {fm : List (Name × FShape)} {f : UField} {r : List UField}
    {d L : List (Name × FShape)} (h : layoutLoop fm (f :: r) d = some L)
    (hd : ∀ g ∈ f :: r, g.name ∉ d.map Prod.fst) (hnd : ((f :: r).map UField.name).Nodup)
    (hnp : paddingName ∉ (f :: r).map UField.name) (ho : totalWidth d = f.origin)
    (hg : gaps (f :: r) ≤ 1) (hp : paddingName ∈ d.map Prod.fst → gaps (f :: r) = 0) :
    (∃ e, L = d ++ e) ∧ Placed L (f :: r) := by
  induction r generalizing f d with
  | nil =>
    simp only [layoutLoop, Option.map_eq_some_iff] at h
    obtain ⟨c, hc, rfl⟩ := h
    have hf := hd f (by simp)
    rw [dictSet_new hf]
    refine ⟨⟨_, rfl⟩, fun g hg => ?_⟩
    simp only [List.mem_singleton] at hg
    subst hg
    refine ⟨c, ?_, (checkField_iff.1 hc).2.1⟩
    rw [member_append_right hf]
    simp [member, ho]
  | cons g r ih =>
    simp only [layoutLoop, Option.bind_eq_some_iff] at h
    obtain ⟨c, hc, h⟩ := h
    have hw : c.width = f.width := (checkField_iff.1 hc).2.1
    have hf := hd f (by simp)
    rw [dictSet_new hf] at h
    simp only [List.map_cons, List.nodup_cons, List.mem_cons, not_or] at hnd hnp
    have key : ∀ d', (∃ e, d' = d ++ [(f.name, c)] ++ e) → (∀ x ∈ g :: r, x.name ∉ d'.map Prod.fst) →
        totalWidth d' = g.origin → layoutLoop fm (g :: r) d' = some L →
        (paddingName ∈ d'.map Prod.fst → gaps (g :: r) = 0) → gaps (g :: r) ≤ 1 →
        (∃ e, L = d ++ e) ∧ Placed L (f :: g :: r) := by
      rintro d' ⟨e, rfl⟩ hd' ho' h' hp' hg'
      obtain ⟨⟨e', rfl⟩, hpl⟩ := ih h' hd' (by simp only [List.map_cons, List.nodup_cons]; exact hnd.2)
        (by simp only [List.map_cons, List.mem_cons, not_or]; exact hnp.2) ho' hg' hp'
      refine ⟨⟨[(f.name, c)] ++ e ++ e', by simp only [List.append_assoc]⟩, fun x hx => ?_⟩
      rcases List.mem_cons.1 hx with rfl | hx
      · refine ⟨c, ?_, hw⟩
        rw [member_append_left (by simp), member_append_left (by simp), member_append_right hf]
        simp [member, ho]
      · exact hpl x hx
    have hfresh : ∀ x ∈ g :: r, x.name ∉ (d ++ [(f.name, c)]).map Prod.fst := by
      intro x hx
      simp only [List.map_append, List.map_cons, List.map_nil, List.mem_append, List.mem_singleton, not_or]
      refine ⟨hd x (List.mem_cons_of_mem _ hx), fun e => ?_⟩
      rcases List.mem_cons.1 hx with rfl | hx
      · exact hnd.1.1 e.symm
      · exact hnd.1.2 (e ▸ List.mem_map_of_mem hx)
    have htw : totalWidth (d ++ [(f.name, c)]) = f.origin + f.width := by
      rw [totalWidth_append, ho]; simp [totalWidth, hw]
    split at h
    · next hgap =>
      split at h
      · cases h
      · next hle =>
        simp only [gaps, if_neg hgap] at hg hp
        have hpad : paddingName ∉ (d ++ [(f.name, c)]).map Prod.fst := by
          simp only [List.map_append, List.map_cons, List.map_nil, List.mem_append, List.mem_singleton, not_or]
          exact ⟨fun hx => by have := hp hx; omega, hnp.1⟩
        rw [dictSet_new hpad] at h
        refine key _ ⟨_, rfl⟩ ?_ ?_ h ?_ (by omega)
        · intro x hx
          rw [List.map_append, List.mem_append, not_or]
          refine ⟨hfresh x hx, ?_⟩
          simp only [List.map_cons, List.map_nil, List.mem_singleton]
          intro e
          rcases List.mem_cons.1 hx with rfl | hx
          · exact hnp.2.1 e.symm
          · exact hnp.2.2 (e ▸ List.mem_map_of_mem hx)
        · rw [totalWidth_append, htw]; simp only [totalWidth, FShape.width]; omega
        · intro _; omega
    · next hgap =>
      have hgap : f.origin + f.width = g.origin := by simpa using hgap
      simp only [gaps, if_pos hgap] at hg hp
      refine key _ ⟨[], by simp⟩ hfresh (by rw [htw]; exact hgap) h ?_ (by omega)
      intro hx
      simp only [List.map_append, List.map_cons, List.map_nil, List.mem_append, List.mem_singleton] at hx
      rcases hx with hx | hx
      · have := hp hx; omega
      · exact absurd hx hnp.1

/-- What the layout loop does to the last field. -/
theorem layoutLoop_last {fm : List (Name × FShape)} {f : UField} {r : List UField}
    {d L : List (Name × FShape)} (h : layoutLoop fm (f :: r) d = some L)
    (hd : ∀ g ∈ f :: r, g.name ∉ d.map Prod.fst) (hnd : ((f :: r).map UField.name).Nodup)
    (hnp : paddingName ∉ (f :: r).map UField.name) (ho : totalWidth d ≤ f.origin) :
    ∃ l ∈ f :: r, ∃ o c, member L l.name = some (o, c) ∧ o ≤ l.origin ∧
      (totalWidth d < f.origin → o < l.origin) ∧
      (0 < padWidth d → 0 < gaps (f :: r) → o < l.origin) ∧ (1 < gaps (f :: r) → o < l.origin) := by
  induction r generalizing f d with
  | nil =>
    simp only [layoutLoop, Option.map_eq_some_iff] at h
    obtain ⟨c, hc, rfl⟩ := h
    have hf := hd f (by simp)
    rw [dictSet_new hf]
    refine ⟨f, by simp, totalWidth d, c, ?_, ho, fun h => h, ?_, ?_⟩
    · rw [member_append_right hf]; simp [member]
    · intro _ h; simp [gaps] at h
    · intro h; simp [gaps] at h
  | cons g r ih =>
    simp only [layoutLoop, Option.bind_eq_some_iff] at h
    obtain ⟨c, hc, h⟩ := h
    have hw : c.width = f.width := (checkField_iff.1 hc).2.1
    have hf := hd f (by simp)
    rw [dictSet_new hf] at h
    simp only [List.map_cons, List.nodup_cons, List.mem_cons, not_or] at hnd hnp
    have hfresh : ∀ x ∈ g :: r, x.name ∉ (d ++ [(f.name, c)]).map Prod.fst := by
      intro x hx
      simp only [List.map_append, List.map_cons, List.map_nil, List.mem_append, List.mem_singleton, not_or]
      refine ⟨hd x (List.mem_cons_of_mem _ hx), fun e => ?_⟩
      rcases List.mem_cons.1 hx with rfl | hx
      · exact hnd.1.1 e.symm
      · exact hnd.1.2 (e ▸ List.mem_map_of_mem hx)
    have hnd' : ((g :: r).map UField.name).Nodup := by simp only [List.map_cons, List.nodup_cons]; exact hnd.2
    have hnp' : paddingName ∉ (g :: r).map UField.name := by
      simp only [List.map_cons, List.mem_cons, not_or]; exact hnp.2
    have htw : totalWidth (d ++ [(f.name, c)]) = totalWidth d + f.width := by
      rw [totalWidth_append]; simp [totalWidth, hw]
    have hpw : padWidth (d ++ [(f.name, c)]) = padWidth d := padWidth_append (Ne.symm hnp.1)
    split at h
    · next hgap =>
      split at h
      · cases h
      · next hle =>
        have ht := totalWidth_pad (d := d ++ [(f.name, c)])
          (v := .unsigned (g.origin - (f.origin + f.width)))
        rw [htw, hpw] at ht
        simp only [FShape.width] at ht
        obtain ⟨l, hl, o, c', h1, h2, h3, h4, h5⟩ := ih h (fun x hx hx' => by
          rcases mem_keys_set.1 hx' with hx' | hx'
          · exact hfresh x hx hx'
          · exact hnp' (hx' ▸ List.mem_map_of_mem hx)) hnd' hnp' (by omega)
        rw [padWidth_set] at h4
        simp only [FShape.width] at h4
        refine ⟨l, List.mem_cons_of_mem _ hl, o, c', h1, h2, ?_, ?_, ?_⟩
        · intro hx; exact h3 (by omega)
        · intro hx _; exact h3 (by omega)
        · intro hx
          simp only [gaps, if_neg hgap] at hx
          exact h4 (by omega) (by omega)
    · next hgap =>
      have hgap : f.origin + f.width = g.origin := by simpa using hgap
      obtain ⟨l, hl, o, c', h1, h2, h3, h4, h5⟩ := ih h hfresh hnd' hnp' (by rw [htw]; omega)
      rw [hpw] at h4
      rw [htw] at h3
      simp only [gaps, if_pos hgap, Nat.zero_add]
      exact ⟨l, List.mem_cons_of_mem _ hl, o, c', h1, h2, fun hx => h3 (by omega), h4, h5⟩

/-- **C35, full statement**: every accepted source gets a layout with every field in its place. -/
def C35_full : Prop :=
  ∀ fm fs L, Ordered fs → createLayout fm fs = some L → Placed L fs

/-- **C35** holds for sources with at most one gap between fields, and only for those: with two gaps
some field is misplaced (`padding_id` is never incremented, deviation D4). -/
theorem C35_layout_partial {fm : List (Name × FShape)} {fs : List UField} {L : List (Name × FShape)}
    (ho : Ordered fs) (h : createLayout fm fs = some L) : Placed L fs ↔ gaps fs ≤ 1 := by
  cases fs with
  | nil => exact ⟨fun _ => by simp [gaps], fun _ f hf => by cases hf⟩
  | cons f r =>
    have h0 : f.origin = 0 := ho.first f rfl
    constructor
    · intro hp
      by_contra hg
      obtain ⟨l, hl, o, c, h1, -, -, -, h5⟩ := layoutLoop_last h (by simp) ho.nodup ho.notPadding
        (by simp [totalWidth])
      obtain ⟨c', h2, -⟩ := hp l hl
      rw [h1] at h2
      simp only [Option.some.injEq, Prod.mk.injEq] at h2
      have := h5 (by omega)
      omega
    · intro hg
      exact (layoutLoop_placed h (by simp) ho.nodup ho.notPadding (by simp [totalWidth, h0]) hg
        (by simp)).2

/-- One-letter names for the examples. -/
def plain (n : Char) (origin width : Nat) : UField := ⟨[n], origin, width, []⟩

/-- A source with three one-bit fields and two gaps. -/
def twoGaps : List UField := [plain 'a' 0 1, plain 'b' 2 1, plain 'c' 5 1]
def twoGapsMap : List (Name × FShape) := [(['a'], .unsigned 1), (['b'], .unsigned 1), (['c'], .unsigned 1)]

theorem twoGaps_ordered : Ordered twoGaps :=
  ⟨by decide, by decide, by decide, by simp [twoGaps, plain]⟩

/-- **C35** does not hold in general. -/
theorem C35_full_false : ¬ C35_full := by
  intro h
  have hc : createLayout twoGapsMap twoGaps = some [(['a'], .unsigned 1), (paddingName, .unsigned 2),
      (['b'], .unsigned 1), (['c'], .unsigned 1)] := by decide +kernel
  have := (C35_layout_partial twoGaps_ordered hc).1 (h _ _ _ twoGaps_ordered hc)
  revert this
  decide

/-- With one gap (between `a` and `b`) the layout is right: 'b' is at bit 2. -/
example : Ordered [plain 'a' 0 1, plain 'b' 2 1] ∧
    (createLayout twoGapsMap [plain 'a' 0 1, plain 'b' 2 1]).map (fun L => member L ['b']) =
      some (some (2, .unsigned 1)) :=
  ⟨⟨by decide, by decide, by decide, by simp [plain]⟩, by decide +kernel⟩

end Sentinel.Ucode
