import Verif.Ucode.Encode
import Verif.Props.Layout
/-!
# C34, C36: the microcode word of the default microcode
-/

namespace Sentinel.Ucode

theorem objectWord_dvd {fs : List UField} {vals : List (Name × Nat)} {n : Nat}
    (h : ∀ f ∈ fs, n ≤ f.origin) : 2 ^ n ∣ objectWord fs vals := by
  induction fs with
  | nil => exact Nat.dvd_zero _
  | cons f r ih =>
    refine Nat.dvd_add (Nat.dvd_mul_left_of_dvd (Nat.pow_dvd_pow 2 (h f (by simp))) _) (ih fun g hg => h g (by simp [hg]))

theorem add_div_pow {a q n m : Nat} (ha : a < 2 ^ n) (hn : n ≤ m) : (a + 2 ^ n * q) / 2 ^ m = 2 ^ n * q / 2 ^ m := by
  obtain ⟨k, rfl⟩ := Nat.exists_eq_add_of_le hn
  rw [Nat.pow_add, ← Nat.div_div_eq_div_mul, ← Nat.div_div_eq_div_mul, Nat.add_mul_div_left _ _ (Nat.two_pow_pos _),
    Nat.div_eq_of_lt ha, Nat.mul_div_cancel_left _ (Nat.two_pow_pos _), Nat.zero_add]

/-- In any list of fields in order and not overlapping, a field of the object word has the value it
was given, if the values fit. -/
theorem objectWord_field {fs : List UField} {vals : List (Name × Nat)}
    (ho : fs.Pairwise fun f g => f.origin + f.width ≤ g.origin)
    (hv : ∀ f ∈ fs, (vals.lookup f.name).getD 0 < 2 ^ f.width) {f : UField} (hf : f ∈ fs) :
    objectWord fs vals / 2 ^ f.origin % 2 ^ f.width = (vals.lookup f.name).getD 0 := by
  induction fs with
  | nil => cases hf
  | cons g r ih =>
    rw [List.pairwise_cons] at ho
    obtain ⟨q, hq⟩ := objectWord_dvd (vals := vals) (n := g.origin + g.width) ho.1
    have hg := hv g (by simp)
    rcases List.mem_cons.1 hf with rfl | hf
    · rw [objectWord, hq, Nat.pow_add, Nat.mul_assoc, Nat.mul_comm _ (2 ^ f.origin), ← Nat.mul_add,
        Nat.mul_div_cancel_left _ (Nat.two_pow_pos _), Nat.add_mul_mod_self_left, Nat.mod_eq_of_lt hg]
    · rw [← ih ho.2 (fun f' hf' => hv f' (by simp [hf'])) hf, objectWord, hq, add_div_pow _ (ho.1 f hf)]
      rw [Nat.pow_add, Nat.mul_comm]
      exact Nat.mul_lt_mul_of_pos_left hg (Nat.two_pow_pos _)

theorem objectWord_lt {fs : List UField} {vals : List (Name × Nat)} {n : Nat}
    (ho : fs.Pairwise fun f g => f.origin + f.width ≤ g.origin)
    (hv : ∀ f ∈ fs, (vals.lookup f.name).getD 0 < 2 ^ f.width)
    (hn : ∀ f ∈ fs, f.origin + f.width ≤ n) : objectWord fs vals < 2 ^ n := by
  induction fs with
  | nil => exact Nat.two_pow_pos n
  | cons g r ih =>
    rw [List.pairwise_cons] at ho
    have h1 := ih ho.2 (fun f' hf' => hv f' (by simp [hf'])) (fun f' hf' => hn f' (by simp [hf']))
    obtain ⟨q, hq⟩ := objectWord_dvd (vals := vals) (n := g.origin + g.width) ho.1
    have hg := hv g (by simp)
    have hgn := hn g (by simp)
    obtain ⟨k, rfl⟩ := Nat.exists_eq_add_of_le hgn
    have h2 : (vals.lookup g.name).getD 0 * 2 ^ g.origin < 2 ^ (g.origin + g.width) := by
      rw [Nat.pow_add, Nat.mul_comm]
      exact Nat.mul_lt_mul_of_pos_left hg (Nat.two_pow_pos _)
    rw [hq, Nat.pow_add 2 (g.origin + g.width)] at h1
    have h3 : q < 2 ^ k := Nat.lt_of_mul_lt_mul_left h1
    rw [objectWord, hq, Nat.pow_add 2 (g.origin + g.width)]
    have h4 : 2 ^ (g.origin + g.width) * (q + 1) ≤ 2 ^ (g.origin + g.width) * 2 ^ k := Nat.mul_le_mul_left _ h3
    rw [Nat.mul_add, Nat.mul_one] at h4
    omega

/-! ## The default microcode -/

/-- The layout of the default microcode: the one documented at `ucoderom.py` 68-99. -/
def defaultLayout : List (Name × FShape) := fields.map fun f => (f.name, ((fieldMap.lookup f.name).getD (.unsigned 0)))

/-- **C36** for the default microcode: it is accepted, -/
theorem C36_default : createLayout fieldMap fields = some defaultLayout := by decide +kernel

/-- and so every field and enum agrees with `ucodefields.py`. -/
theorem C36_default_agrees : ∀ f ∈ fields, ∃ c, fieldMap.lookup f.name = some c ∧ Agrees c f :=
  C36_accepted C36_default

theorem fields_ordered : Ordered fields :=
  ⟨by decide +kernel, by decide +kernel, by decide +kernel, by decide +kernel⟩

/-- **C34** (layout): 26 fields, each at its declared place, one after another without gap or overlap
over exactly 48 bits. -/
theorem C34_layout : Placed defaultLayout fields ∧ fields.length = 26 ∧ gaps fields = 0 ∧
    totalWidth defaultLayout = 48 :=
  ⟨(C35_layout_partial fields_ordered C36_default).2 (by decide +kernel), by decide +kernel,
    by decide +kernel, by decide +kernel⟩

theorem fields_pairwise : fields.Pairwise fun f g => f.origin + f.width ≤ g.origin := by decide +kernel

theorem codes_lt : (∀ v, (codeJmpType v).2 < 2 ^ 2) ∧ (∀ v, (codeCondTest v).2 < 2 ^ 2) ∧
    (∀ v, (codePcAction v).2 < 2 ^ 2) ∧ (∀ v, (codeASrc v).2 < 2 ^ 3) ∧ (∀ v, (codeBSrc v).2 < 2 ^ 3) ∧
    (∀ v, (codeOpType v).2 < 2 ^ 4) ∧ (∀ v, (codeALUIMod v).2 < 2 ^ 1) ∧ (∀ v, (codeALUOMod v).2 < 2 ^ 2) ∧
    (∀ v, (codeRegRSel v).2 < 2 ^ 1) ∧ (∀ v, (codeRegWSel v).2 < 2 ^ 1) ∧ (∀ v, (codeCSROp v).2 < 2 ^ 2) ∧
    (∀ v, (codeCSRSel v).2 < 2 ^ 1) ∧ (∀ v, (codeMemSel v).2 < 2 ^ 2) ∧ (∀ v, (codeMemExtend v).2 < 2 ^ 1) ∧
    (∀ v, (codeExceptCtl v).2 < 2 ^ 3) := by
  refine ⟨?_, ?_, ?_, ?_, ?_, ?_, ?_, ?_, ?_, ?_, ?_, ?_, ?_, ?_, ?_⟩ <;> intro v <;> cases v <;> decide

theorem lookup_of_mem {l : List (Name × Nat)} {k : Name} {v : Nat} (hnd : (l.map Prod.fst).Nodup) (h : (k, v) ∈ l) :
    l.lookup k = some v := by
  induction l with
  | nil => cases h
  | cons p r ih =>
    simp only [List.map_cons, List.nodup_cons] at hnd
    rcases List.mem_cons.1 h with h | h
    · subst h; simp
    · have hne : k ≠ p.1 := fun e => hnd.1 (e ▸ List.mem_map_of_mem (f := Prod.fst) h)
      have hb : (k == p.1) = false := by simpa using hne
      rw [List.lookup_cons, hb]
      exact ih hnd.2 h

theorem values_names (u : UInsn) : (fieldValues u).map Prod.fst = fields.map UField.name := by
  have : (fieldValues u).map Prod.fst = (fieldValues UInsn.hole).map Prod.fst := rfl
  rw [this]; decide +kernel

theorem values_lookup {u : UInsn} {k : Name} {v : Nat} (h : (k, v) ∈ fieldValues u) : (fieldValues u).lookup k = some v :=
  lookup_of_mem (by rw [values_names]; exact fields_ordered.nodup) h

/-- Widths of the fields. -/
def widths : List Nat := [8, 2, 2, 1, 2, 1, 1, 3, 3, 4, 1, 2, 1, 1, 1, 1, 2, 1, 1, 2, 1, 1, 1, 1, 1, 3]

theorem values_widths (u : UInsn) : ∀ p ∈ (fieldValues u).zip widths, p.1.2 < 2 ^ p.2 := by
  obtain ⟨c1, c2, c3, c4, c5, c6, c7, c8, c9, c10, c11, c12, c13, c14, c15⟩ := codes_lt
  have hb : ∀ b : Bool, b.toNat < 2 ^ 1 := by decide
  simp only [fieldValues, widths, List.zip_cons_cons, List.zip_nil_right, List.forall_mem_cons]
  exact ⟨u.target.isLt, c1 _, c2 _, hb _, c3 _, hb _, hb _, c4 _, c5 _, c6 _, c7 _, c8 _, hb _, hb _, c9 _, c10 _,
    c11 _, c12 _, hb _, c13 _, c14 _, hb _, hb _, hb _, hb _, c15 _, by simp⟩

theorem values_lt (u : UInsn) : ∀ f ∈ fields, ((fieldValues u).lookup f.name).getD 0 < 2 ^ f.width := by
  have hz : ((fieldValues u).map Prod.fst).zip widths = fields.map (fun f => (f.name, f.width)) := by
    rw [values_names]; decide +kernel
  have hm : ((fieldValues u).map Prod.fst).zip widths = ((fieldValues u).zip widths).map (Prod.map Prod.fst id) := by
    rw [List.zip_map_left]
  intro f hf
  have h : (f.name, f.width) ∈ ((fieldValues u).zip widths).map (Prod.map Prod.fst id) := by
    rw [← hm, hz]; exact List.mem_map_of_mem (f := fun f : UField => (f.name, f.width)) hf
  obtain ⟨⟨⟨k, v⟩, w⟩, hp, he⟩ := List.mem_map.1 h
  simp only [Prod.map, id, Prod.mk.injEq] at he
  obtain ⟨rfl, rfl⟩ := he
  rw [values_lookup (List.of_mem_zip hp).1]
  exact values_widths u _ hp

/-- **C34** (round trip): every microinstruction fits in 48 bits, and every field that `UCodeROM`
presents when the memory returns its object word is the field that was assembled. -/
theorem C34_roundtrip (u : UInsn) : encode u < 2 ^ 48 ∧
    ∀ k v, (k, v) ∈ fieldValues u → readMember defaultLayout k (encode u) = some v := by
  refine ⟨objectWord_lt fields_pairwise (values_lt u) (by decide +kernel), ?_⟩
  intro k v hkv
  have hk : k ∈ fields.map UField.name := by rw [← values_names u]; exact List.mem_map_of_mem (f := Prod.fst) hkv
  obtain ⟨f, hf, rfl⟩ := List.mem_map.1 hk
  obtain ⟨c, hc, hw⟩ := C34_layout.1 f hf
  have hl := values_lookup hkv
  have h := objectWord_field fields_pairwise (values_lt u) hf
  simp only [readMember, hc, Option.map_some, hw, encode, h, hl, Option.getD_some]

/-- **C34** (no information is lost): two microinstructions with the same word are the same. -/
theorem C34_injective {u v : UInsn} (h : encode u = encode v) : u = v := by
  have key : fieldValues u = fieldValues v := by
    have hlen : (fieldValues u).map Prod.fst = (fieldValues v).map Prod.fst := rfl
    apply List.ext_getElem (by simpa using congrArg List.length hlen)
    intro i hi hj
    have h1 := (C34_roundtrip u).2 (fieldValues u)[i].1 (fieldValues u)[i].2 (List.getElem_mem hi)
    have h2 := (C34_roundtrip v).2 (fieldValues v)[i].1 (fieldValues v)[i].2 (List.getElem_mem hj)
    have hk : ((fieldValues u)[i]).1 = ((fieldValues v)[i]).1 := by
      have := congrArg (fun l => l[i]?) hlen
      simp only [List.getElem?_map, List.getElem?_eq_getElem hi, List.getElem?_eq_getElem hj, Option.map_some,
        Option.some.injEq] at this
      exact this
    rw [h, hk, h2] at h1
    exact Prod.ext hk (Option.some.inj h1).symm
  have b : ∀ {x y : Bool}, x.toNat = y.toNat → x = y := by decide
  obtain ⟨a0, a1, a2, a3, a4, a5, a6, a7, a8, a9, a10, a11, a12, a13, a14, a15, a16, a17, a18, a19, a20, a21, a22, a23, a24, a25⟩ := u
  obtain ⟨b0, b1, b2, b3, b4, b5, b6, b7, b8, b9, b10, b11, b12, b13, b14, b15, b16, b17, b18, b19, b20, b21, b22, b23, b24, b25⟩ := v
  simp only [fieldValues, List.cons.injEq, Prod.mk.injEq, true_and, and_true] at key
  obtain ⟨h0, h1, h2, h3, h4, h5, h6, h7, h8, h9, h10, h11, h12, h13, h14, h15, h16, h17, h18, h19, h20, h21, h22, h23, h24, h25⟩ := key
  obtain rfl := BitVec.eq_of_toNat_eq h0
  obtain rfl : a1 = b1 := by revert h1; cases a1 <;> cases b1 <;> decide
  obtain rfl : a2 = b2 := by revert h2; cases a2 <;> cases b2 <;> decide
  obtain rfl := b h3
  obtain rfl : a4 = b4 := by revert h4; cases a4 <;> cases b4 <;> decide
  obtain rfl := b h5
  obtain rfl := b h6
  obtain rfl : a7 = b7 := by revert h7; cases a7 <;> cases b7 <;> decide
  obtain rfl : a8 = b8 := by revert h8; cases a8 <;> cases b8 <;> decide
  obtain rfl : a9 = b9 := by revert h9; cases a9 <;> cases b9 <;> decide
  obtain rfl : a10 = b10 := by revert h10; cases a10 <;> cases b10 <;> decide
  obtain rfl : a11 = b11 := by revert h11; cases a11 <;> cases b11 <;> decide
  obtain rfl := b h12
  obtain rfl := b h13
  obtain rfl : a14 = b14 := by revert h14; cases a14 <;> cases b14 <;> decide
  obtain rfl : a15 = b15 := by revert h15; cases a15 <;> cases b15 <;> decide
  obtain rfl : a16 = b16 := by revert h16; cases a16 <;> cases b16 <;> decide
  obtain rfl : a17 = b17 := by revert h17; cases a17 <;> cases b17 <;> decide
  obtain rfl := b h18
  obtain rfl : a19 = b19 := by revert h19; cases a19 <;> cases b19 <;> decide
  obtain rfl : a20 = b20 := by revert h20; cases a20 <;> cases b20 <;> decide
  obtain rfl := b h21
  obtain rfl := b h22
  obtain rfl := b h23
  obtain rfl := b h24
  obtain rfl : a25 = b25 := by revert h25; cases a25 <;> cases b25 <;> decide
  rfl

/-- Members of an enum class. -/
def FShape.members : FShape → List (Name × Nat)
  | .unsigned _ => []
  | .enum _ ms => ms

/-- **C34** (meaning of the values): the value of each constructor used in the model is that of the
member of the same name of the class in `ucodefields.py`, which decodes it in the core. -/
theorem C34_codes :
    (∀ v, pyJmpType.members.lookup (codeJmpType v).1 = some (codeJmpType v).2) ∧
    (∀ v, pyCondTest.members.lookup (codeCondTest v).1 = some (codeCondTest v).2) ∧
    (∀ v, pyPcAction.members.lookup (codePcAction v).1 = some (codePcAction v).2) ∧
    (∀ v, pyASrc.members.lookup (codeASrc v).1 = some (codeASrc v).2) ∧
    (∀ v, pyBSrc.members.lookup (codeBSrc v).1 = some (codeBSrc v).2) ∧
    (∀ v, pyOpType.members.lookup (codeOpType v).1 = some (codeOpType v).2) ∧
    (∀ v, pyALUIMod.members.lookup (codeALUIMod v).1 = some (codeALUIMod v).2) ∧
    (∀ v, pyALUOMod.members.lookup (codeALUOMod v).1 = some (codeALUOMod v).2) ∧
    (∀ v, pyRegRSel.members.lookup (codeRegRSel v).1 = some (codeRegRSel v).2) ∧
    (∀ v, pyRegWSel.members.lookup (codeRegWSel v).1 = some (codeRegWSel v).2) ∧
    (∀ v, pyCSROp.members.lookup (codeCSROp v).1 = some (codeCSROp v).2) ∧
    (∀ v, pyCSRSel.members.lookup (codeCSRSel v).1 = some (codeCSRSel v).2) ∧
    (∀ v, pyMemSel.members.lookup (codeMemSel v).1 = some (codeMemSel v).2) ∧
    (∀ v, pyMemExtend.members.lookup (codeMemExtend v).1 = some (codeMemExtend v).2) ∧
    (∀ v, pyExceptCtl.members.lookup (codeExceptCtl v).1 = some (codeExceptCtl v).2) := by
  refine ⟨?_, ?_, ?_, ?_, ?_, ?_, ?_, ?_, ?_, ?_, ?_, ?_, ?_, ?_, ?_⟩ <;> intro v <;> cases v <;> decide

theorem encode_hole : encode UInsn.hole = 0 := by decide +kernel

theorem map_getD {α β : Type} (enc : α → β) (f : Nat → Option α) (d : α) (l : List Nat) :
    l.map (fun a => ((f a).map enc).getD (enc d)) = (l.map fun a => (f a).getD d).map enc := by
  rw [List.map_map]
  refine List.map_congr_left fun a _ => ?_
  simp only [Function.comp]
  cases f a <;> rfl

/-- **C34** (ROM): for any assembled words, the integers `UCodeROM` initialises its memory with are
the words of the microinstructions in the model's ROM, holes included. -/
theorem C34_rom (ws : List (Nat × UInsn)) : romContents ws = (memInit ws).map encode := by
  have h := map_getD encode (fun a => ws.lookup a) UInsn.hole (List.range 256)
  rw [encode_hole] at h
  rw [romContents, memInit, h]

/-- The first word of the ROM (`fetch: ...; wait_for_ack`), as an integer. -/
example : encode u_00 = 17730698746368 := by decide +kernel

end Sentinel.Ucode
