import Verif.Otlp.Proto
/-!
# C96: lemmas about the fields of protobuf messages
-/

namespace Otel.Otlp.Proto
open Rust Wire
open Otel.Otlp.Json

/-! ## The values of one field -/

theorem sel_append (t : Nat) (a b : List Rec) : sel t (a ++ b) = sel t a ++ sel t b := by simp [sel]

theorem sel_other {t t' : Nat} {rs : List Rec} (h : ∀ r ∈ rs, r.1 = t') (hn : t' ≠ t) : sel t rs = [] := by
  rw [sel, List.filterMap_eq_nil_iff]
  intro r hr
  rw [if_neg (by rw [h r hr]; exact hn)]

theorem sel_same {t : Nat} {rs : List Rec} (h : ∀ r ∈ rs, r.1 = t) : sel t rs = rs.map (·.2) := by
  rw [sel]
  induction rs with
  | nil => rfl
  | cons r rs ih =>
    rw [List.filterMap_cons, if_pos (h r List.mem_cons_self), ih fun x hx => h x (List.mem_cons_of_mem _ hx)]
    rfl

theorem tag_strF {t : Nat} {s : Str} : ∀ r ∈ strF t s, r.1 = t := by intro r hr; unfold strF at hr; split at hr <;> simp_all
theorem tag_bytesF {t : Nat} {s : List Byte} : ∀ r ∈ bytesF t s, r.1 = t := by intro r hr; unfold bytesF at hr; split at hr <;> simp_all
theorem tag_u32F {t : Nat} {s : BitVec 32} : ∀ r ∈ u32F t s, r.1 = t := by intro r hr; unfold u32F at hr; split at hr <;> simp_all
theorem tag_enumF {t : Nat} {s : BitVec 32} : ∀ r ∈ enumF t s, r.1 = t := by intro r hr; unfold enumF at hr; split at hr <;> simp_all
theorem tag_s32F {t : Nat} {s : BitVec 32} : ∀ r ∈ s32F t s, r.1 = t := by intro r hr; unfold s32F at hr; split at hr <;> simp_all
theorem tag_boolF {t : Nat} {s : Bool} : ∀ r ∈ boolF t s, r.1 = t := by intro r hr; unfold boolF at hr; split at hr <;> simp_all
theorem tag_f64F {t : Nat} {s : BitVec 64} : ∀ r ∈ f64F t s, r.1 = t := by intro r hr; unfold f64F at hr; split at hr <;> simp_all
theorem tag_f32F {t : Nat} {s : BitVec 32} : ∀ r ∈ f32F t s, r.1 = t := by intro r hr; unfold f32F at hr; split at hr <;> simp_all
theorem tag_dblF {t : Nat} {s : BitVec 64} : ∀ r ∈ dblF t s, r.1 = t := by intro r hr; unfold dblF at hr; split at hr <;> simp_all
theorem tag_packed64F {t : Nat} {s : List (BitVec 64)} : ∀ r ∈ packed64F t s, r.1 = t := by intro r hr; unfold packed64F at hr; split at hr <;> simp_all
theorem tag_packedVarintF {t : Nat} {s : List (BitVec 64)} : ∀ r ∈ packedVarintF t s, r.1 = t := by
  intro r hr; unfold packedVarintF at hr; split at hr <;> simp_all
theorem tag_optDblF {t : Nat} {s : Option (BitVec 64)} : ∀ r ∈ optDblF t s, r.1 = t := by intro r hr; cases s <;> simp_all [optDblF]
theorem tag_msgF {α : Type} {f : α → List Rec} {t : Nat} {s : Option α} : ∀ r ∈ msgF t f s, r.1 = t := by intro r hr; cases s <;> simp_all [msgF]
theorem tag_repF {α : Type} {f : α → List Rec} {t : Nat} {s : List α} : ∀ r ∈ repF t f s, r.1 = t := by
  intro r hr
  obtain ⟨a, _, rfl⟩ := List.mem_map.1 hr
  rfl

theorem sel_strF {t t' : Nat} (h : t' ≠ t) (s : Str) : sel t (strF t' s) = [] := sel_other tag_strF h
theorem sel_bytesF {t t' : Nat} (h : t' ≠ t) (s : List Byte) : sel t (bytesF t' s) = [] := sel_other tag_bytesF h
theorem sel_u32F {t t' : Nat} (h : t' ≠ t) (s : BitVec 32) : sel t (u32F t' s) = [] := sel_other tag_u32F h
theorem sel_enumF {t t' : Nat} (h : t' ≠ t) (s : BitVec 32) : sel t (enumF t' s) = [] := sel_other tag_enumF h
theorem sel_s32F {t t' : Nat} (h : t' ≠ t) (s : BitVec 32) : sel t (s32F t' s) = [] := sel_other tag_s32F h
theorem sel_boolF {t t' : Nat} (h : t' ≠ t) (s : Bool) : sel t (boolF t' s) = [] := sel_other tag_boolF h
theorem sel_f64F {t t' : Nat} (h : t' ≠ t) (s : BitVec 64) : sel t (f64F t' s) = [] := sel_other tag_f64F h
theorem sel_f32F {t t' : Nat} (h : t' ≠ t) (s : BitVec 32) : sel t (f32F t' s) = [] := sel_other tag_f32F h
theorem sel_dblF {t t' : Nat} (h : t' ≠ t) (s : BitVec 64) : sel t (dblF t' s) = [] := sel_other tag_dblF h
theorem sel_packed64F {t t' : Nat} (h : t' ≠ t) (s : List (BitVec 64)) : sel t (packed64F t' s) = [] := sel_other tag_packed64F h
theorem sel_packedVarintF {t t' : Nat} (h : t' ≠ t) (s : List (BitVec 64)) : sel t (packedVarintF t' s) = [] := sel_other tag_packedVarintF h
theorem sel_optDblF {t t' : Nat} (h : t' ≠ t) (s : Option (BitVec 64)) : sel t (optDblF t' s) = [] := sel_other tag_optDblF h
theorem sel_msgF {α : Type} {f : α → List Rec} {t t' : Nat} (h : t' ≠ t) (s : Option α) : sel t (msgF t' f s) = [] := sel_other tag_msgF h
theorem sel_repF {α : Type} {f : α → List Rec} {t t' : Nat} (h : t' ≠ t) (s : List α) : sel t (repF t' f s) = [] := sel_other tag_repF h

/-! ## Kinds of fields come back -/

theorem asText_text (s : Str) : asText (.len (text s)) = some s := by
  have : ((utf8 s).map UInt8.toBitVec).map UInt8.ofBitVec = utf8 s := by
    rw [List.map_map]
    exact (List.map_congr_left fun b _ => by rfl).trans (List.map_id _)
  rw [asText, text, this, fromUtf8_utf8]

theorem last_single {β : Type} (rd : Val → Option β) (d : β) (v : Val) : last rd d [v] = rd v := by
  simp only [last, List.foldlM_cons, List.foldlM_nil]
  cases rd v <;> rfl

theorem last_nil {β : Type} (rd : Val → Option β) (d : β) : last rd d [] = some d := rfl

theorem read_str (t : Nat) (s : Str) : last asText [] (sel t (strF t s)) = some s := by
  rw [sel_same tag_strF, strF]
  split
  · next h => rw [h]; rfl
  · rw [List.map_singleton, last_single, asText_text]

theorem read_bytes (t : Nat) (s : List Byte) : last asBytes [] (sel t (bytesF t s)) = some s := by
  rw [sel_same tag_bytesF, bytesF]
  split
  · next h => rw [h]; rfl
  · rw [List.map_singleton, last_single]; rfl

theorem read_u32 (t : Nat) (s : BitVec 32) : last asU32 0#32 (sel t (u32F t s)) = some s := by
  rw [sel_same tag_u32F, u32F]
  split
  · next h => rw [h]; rfl
  · rw [List.map_singleton, last_single, asU32, BitVec.setWidth_setWidth_of_le _ (by omega), BitVec.setWidth_eq]

theorem read_enum (t : Nat) (s : BitVec 32) : last asI32 0#32 (sel t (enumF t s)) = some s := by
  rw [sel_same tag_enumF, enumF]
  split
  · next h => rw [h]; rfl
  · rw [List.map_singleton, last_single, asI32]
    congr 1
    ext i hi
    simp [BitVec.getElem_signExtend, hi, show i < 64 by omega]

theorem ones_getElem : ∀ (i : Nat) (h : i < 32), (4294967295#32)[i] = true := by decide

theorem sshiftRight_31 (n : BitVec 32) : n.sshiftRight 31 = if n.msb then BitVec.allOnes 32 else 0#32 := by
  ext i hi
  rw [BitVec.getElem_sshiftRight]
  cases hm : n.msb
  · split
    · next h =>
      have : i = 0 := by omega
      subst this
      simp [BitVec.msb_eq_getLsbD_last] at hm
      simpa using hm
    · simp
  · split
    · next h =>
      have : i = 0 := by omega
      subst this
      simp [BitVec.msb_eq_getLsbD_last] at hm
      simpa using hm
    · simp [ones_getElem i hi]

theorem unzigzag_zigzag (n : BitVec 32) : unzigzag (zigzag n) = n := by
  unfold unzigzag zigzag
  rw [BitVec.setWidth_setWidth_of_le _ (by omega), BitVec.setWidth_eq, sshiftRight_31]
  cases hm : n.msb
  · have h1 : (n <<< 1 ^^^ (if false = true then BitVec.allOnes 32 else 0#32)) &&& 1#32 = 0#32 := by
      ext i hi
      by_cases h0 : i = 0 <;> simp [h0]
    rw [h1]
    ext i hi
    by_cases h31 : i = 31
    · subst h31
      simp [BitVec.msb_eq_getLsbD_last] at hm
      simp [hm]
    · have : 1 + i < 32 := by omega
      simp [this]
  · have h1 : (n <<< 1 ^^^ (if true = true then BitVec.allOnes 32 else 0#32)) &&& 1#32 = 1#32 := by
      ext i hi
      by_cases h0 : i = 0 <;> simp [h0]
    rw [h1]
    ext i hi
    by_cases h31 : i = 31
    · subst h31
      simp [BitVec.msb_eq_getLsbD_last] at hm
      simp [hm]
    · have : 1 + i < 32 := by omega
      simp [this, ones_getElem i hi, ones_getElem (1 + i) this]

theorem read_s32 (t : Nat) (s : BitVec 32) : last asS32 0#32 (sel t (s32F t s)) = some s := by
  rw [sel_same tag_s32F, s32F]
  split
  · next h => rw [h]; rfl
  · rw [List.map_singleton, last_single, asS32, unzigzag_zigzag]

theorem read_bool (t : Nat) (s : Bool) : last asBool false (sel t (boolF t s)) = some s := by
  rw [sel_same tag_boolF, boolF]
  cases s <;> rfl

theorem read_f64 (t : Nat) (s : BitVec 64) : last as64 0#64 (sel t (f64F t s)) = some s := by
  rw [sel_same tag_f64F, f64F]
  split
  · next h => rw [h]; rfl
  · rw [List.map_singleton, last_single]; rfl

theorem read_f32 (t : Nat) (s : BitVec 32) : last as32 0#32 (sel t (f32F t s)) = some s := by
  rw [sel_same tag_f32F, f32F]
  split
  · next h => rw [h]; rfl
  · rw [List.map_singleton, last_single]; rfl

theorem read_dbl (t : Nat) (s : BitVec 64) (h : s <<< 1 = 0#64 → s = 0#64) : last as64 0#64 (sel t (dblF t s)) = some s := by
  rw [sel_same tag_dblF, dblF]
  split
  · next hz => rw [h hz]; rfl
  · rw [List.map_singleton, last_single]; rfl

theorem read_optDbl (t : Nat) (s : Option (BitVec 64)) : lastOpt as64 (sel t (optDblF t s)) = some s := by
  rw [sel_same tag_optDblF]
  cases s <;> rfl

/-! ## Packed fields -/

theorem unpack_flatMap (rd : List Byte → Option (Nat × List Byte)) (w : BitVec 64 → List Byte) (hne : ∀ n, w n ≠ [])
    (hrd : ∀ n rest, rd (w n ++ rest) = some (n.toNat, rest)) (ns : List (BitVec 64)) :
    ∀ k, (ns.flatMap w).length ≤ k → unpack rd k (ns.flatMap w) = some ns := by
  induction ns with
  | nil => intro k _; cases k <;> rfl
  | cons n ns ih =>
    intro k hk
    rw [List.flatMap_cons] at hk ⊢
    have hr := hrd n (ns.flatMap w)
    obtain ⟨b, bs, hb⟩ : ∃ b bs, w n = b :: bs := by
      cases hw : w n with
      | nil => exact absurd hw (hne n)
      | cons b bs => exact ⟨b, bs, rfl⟩
    rw [hb, List.cons_append] at hk hr ⊢
    cases k with
    | zero => simp at hk
    | succ k =>
      rw [unpack, hr, Option.bind_some, ih k (by rw [List.length_cons, List.length_append] at hk; omega)]
      simp

theorem mapM_single {α β : Type} (f : α → Option β) (a : α) : [a].mapM f = (f a).map fun b => [b] := by
  rw [List.mapM_cons, List.mapM_nil]
  cases f a <;> rfl

theorem read_packed64 (t : Nat) (ns : List (BitVec 64)) : unpacked asPacked64 (sel t (packed64F t ns)) = some ns := by
  rw [sel_same tag_packed64F, packed64F]
  split
  · next h => rw [h]; rfl
  · rw [List.map_singleton, unpacked, mapM_single, asPacked64,
      unpack_flatMap (readLe 8) (fun n => le 8 n.toNat) (fun n h => by have := le_length 8 n.toNat; rw [h] at this; simp at this)
        (fun n rest => by rw [readLe_le, Nat.mod_eq_of_lt (by simpa using n.isLt)]) ns _ Nat.le.refl]
    simp

theorem read_packedVarint (t : Nat) (ns : List (BitVec 64)) : unpacked asPackedVarint (sel t (packedVarintF t ns)) = some ns := by
  rw [sel_same tag_packedVarintF, packedVarintF]
  split
  · next h => rw [h]; rfl
  · rw [List.map_singleton, unpacked, mapM_single, asPackedVarint,
      unpack_flatMap (readVarint 0) (fun n => varint n.toNat) (fun n => varint_ne_nil _) (fun n rest => readVarint_start _ _ n.isLt) ns _ Nat.le.refl]
    simp

/-! ## Messages inside messages -/

/-- The message is small enough for its length to be written. -/
def Small (rs : List Rec) : Prop := (write rs).length < 2 ^ 64

theorem small_append {a b : List Rec} (h : Small (a ++ b)) : Small a ∧ Small b := by
  unfold Small at *
  rw [write_append, List.length_append] at h
  constructor <;> omega

theorem small_inner {rs : List Rec} {t : Nat} {bs : List Rec} (h : Small rs) (hm : (t, Val.len (write bs)) ∈ rs) : Small bs := by
  have := len_le_write hm
  unfold Small at *
  omega

theorem payload_write {rs : List Rec} (h : Numbered rs) (hs : Small rs) : payload (.len (write rs)) = some rs := parse_small h hs

theorem mapM_some {α β : Type} (f : α → Option β) (g : α → β) (l : List α) (h : ∀ a ∈ l, f a = some (g a)) : l.mapM f = some (l.map g) := by
  induction l with
  | nil => rfl
  | cons a l ih => rw [List.mapM_cons, h a List.mem_cons_self, ih fun x hx => h x (List.mem_cons_of_mem _ hx)]; rfl

theorem read_rep {α : Type} {t : Nat} {fields : α → List Rec} {dec : List Rec → Option α} {ms : List α} (hs : Small (repF t fields ms))
    (hn : ∀ a, Numbered (fields a)) (h : ∀ a ∈ ms, Small (fields a) → dec (fields a) = some a) : rep dec (sel t (repF t fields ms)) = some ms := by
  rw [sel_same tag_repF, rep, repF, List.map_map, List.mapM_map]
  refine (mapM_some _ id ms fun a ha => ?_).trans (by simp)
  have hsa : Small (fields a) := small_inner hs (List.mem_map.2 ⟨a, ha, rfl⟩)
  show inner dec (.len (write (fields a))) = some a
  rw [inner, payload_write (hn a) hsa, Option.bind_some, h a ha hsa]

theorem read_opt {α : Type} {t : Nat} {fields : α → List Rec} {dec : List Rec → Option α} {m : Option α} (hs : Small (msgF t fields m))
    (hn : ∀ a, Numbered (fields a)) (h : ∀ a, m = some a → Small (fields a) → dec (fields a) = some a) : opt dec (sel t (msgF t fields m)) = some m := by
  rw [sel_same tag_msgF]
  cases m with
  | none => rfl
  | some a =>
    have hsa : Small (fields a) := small_inner hs (t := t) (by simp [msgF])
    have : (msgF t fields (some a)).map (·.2) = [.len (write (fields a))] := rfl
    rw [this, opt, if_neg (by simp), mapM_single, payload_write (hn a) hsa]
    simp [h a rfl hsa]

/-! ## Numbers -/

theorem numbered_append {a b : List Rec} (ha : Numbered a) (hb : Numbered b) : Numbered (a ++ b) := by
  intro r hr
  rcases List.mem_append.1 hr with h | h
  · exact ha r h
  · exact hb r h

theorem numbered_of {t : Nat} {rs : List Rec} (h : ∀ r ∈ rs, r.1 = t) (h1 : 1 ≤ t) (h2 : t < 2 ^ 29) : Numbered rs := fun r hr => by
  rw [h r hr]; exact ⟨h1, h2⟩

theorem numbered_single {t : Nat} {v : Val} (h1 : 1 ≤ t) (h2 : t < 2 ^ 29) : Numbered [(t, v)] := by
  intro r hr
  simp only [List.mem_singleton] at hr
  subst hr
  exact ⟨h1, h2⟩

theorem skip_succ (n : Nat) (tags : List Nat) (rs : List Rec) : skip (n + 1) tags rs = some () := by simp [skip]

end Otel.Otlp.Proto
