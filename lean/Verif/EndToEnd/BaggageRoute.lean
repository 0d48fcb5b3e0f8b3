import Verif.Propagation.BaggageProps
import Verif.Http.Headers
/-!
# Baggage through any number of services (C106)

Each service extracts the baggage of a request, changes a copy of it, and injects it into the next request. The models of the parts are those of C11, C13 and C85; this file
puts them together.
-/

namespace Otel.EndToEnd.Baggages
open Rust Otel.Prop Otel.Prop.Bag
open Otel.Baggage hiding Bag

/-- A route: the changes made by all services so far, in order, and the baggage of the context at the end. -/
inductive Route : List Op → Baggage.Bag → Prop where
  /-- the first service has no baggage -/
  | start : Route [] Bag.new
  /-- a service changes its baggage -/
  | change {os : List Op} {b : Baggage.Bag} (o : Op) : Route os b → Route (os ++ [o]) (b.step o)
  /-- a request over a string map: the sender's context `cx` has the baggage, the receiver extracts into `base`; `order` is the iteration order of the map. When there is nothing
  to send, there is no other baggage in the request or in `base` -/
  | request {U : Nat → Type} {os : List Op} {b : Baggage.Bag} (order : Order) (horder : ∀ es, (order es).Perm es) (cx base : Cx Baggage.Bag U) (hcx : baggageOf cx = b)
      (c : Carrier) (he : b.inner = [] → c.toExtractor.get header = none ∧ baggageOf base = Bag.new) :
      Route os b → Route os (baggageOf (extract base (c.setAll (inject order cx)).toExtractor))
  /-- a request over HTTP, which carries printable metadata -/
  | http {U : Nat → Type} {os : List Op} {b : Baggage.Bag} (order : Order) (horder : ∀ es, (order es).Perm es) (cx base : Cx Baggage.Bag U) (hcx : baggageOf cx = b)
      (r : Http.Rules) (m : Http.HeaderMap) (he : b.inner = [] → (Http.toExtractor m).get header = none ∧ baggageOf base = Bag.new)
      (hi : ∀ e ∈ b.inner, Http.Printable e.info) :
      Route os b → Route os (baggageOf (extract base (Http.toExtractor (Http.setAll r m (inject order cx)))))

/-! ## Specification -/

/-- What the last change of a key says: its value and metadata, or that it is not there. -/
def lastChange (k : Str) : List Op → Option (Str × Str)
  | [] => none
  | os => os.foldl (fun acc o => match o with
    | .insert k' v m => if k' = k then some (v, m) else acc
    | .remove k' => if k' = k then none else acc) none

/-- The number of insertions. -/
def inserts (os : List Op) : Nat := (os.filter fun | .insert .. => true | .remove _ => false).length

/-- The bytes of all insertions. -/
def insertedBytes (os : List Op) : Nat := (os.map fun | .insert k v m => byteLen k + byteLen v + byteLen m | .remove _ => 0).sum

/-- All insertions together are within the limits of a baggage, and each is of a valid key and portable (C13). -/
structure Modest (os : List Op) : Prop where
  count : inserts os ≤ 64
  bytes : insertedBytes os ≤ 8192
  entries : ∀ k v m, Op.insert k v m ∈ os → Token k ∧ Portable ⟨k, v, m⟩

/-! ## Lemmas -/

theorem lastChange_append (k : Str) (os : List Op) (o : Op) :
    lastChange k (os ++ [o]) = match o with
      | .insert k' v m => if k' = k then some (v, m) else lastChange k os
      | .remove k' => if k' = k then none else lastChange k os := by
  have h : ∀ os : List Op, lastChange k os = os.foldl (fun acc o => match o with
    | .insert k' v m => if k' = k then some (v, m) else acc
    | .remove k' => if k' = k then none else acc) none := by
    intro os; cases os <;> rfl
  rw [h, h, List.foldl_append]
  cases o <;> rfl

theorem inserts_append (os : List Op) (o : Op) : inserts (os ++ [o]) = inserts os + (match o with | .insert .. => 1 | .remove _ => 0) := by
  unfold inserts
  rw [List.filter_append, List.length_append]
  cases o <;> rfl

theorem insertedBytes_append (os : List Op) (o : Op) :
    insertedBytes (os ++ [o]) = insertedBytes os + (match o with | .insert k v m => byteLen k + byteLen v + byteLen m | .remove _ => 0) := by
  unfold insertedBytes
  rw [List.map_append, List.sum_append]
  cases o <;> simp

theorem Modest.init {os : List Op} {o : Op} (h : Modest (os ++ [o])) : Modest os :=
  ⟨by have := h.count; rw [inserts_append] at this; omega, by have := h.bytes; rw [insertedBytes_append] at this; omega,
    fun k v m hm => h.entries k v m (List.mem_append_left _ hm)⟩

/-- What holds along a route. -/
structure Good (os : List Op) (b : Baggage.Bag) : Prop where
  inv : Inv b
  count : b.inner.length ≤ inserts os
  bytes : b.contentLen ≤ insertedBytes os
  get : ∀ k, b.get k = lastChange k os
  portable : ∀ e ∈ b.inner, Portable e

theorem mem_replace {k v m : Str} {es : List Entry} {e : Entry} (h : e ∈ replace k v m es) : e ∈ es ∨ e = ⟨k, v, m⟩ := by
  induction es with
  | nil => exact .inl h
  | cons a es ih =>
    rw [replace] at h
    split at h
    · rename_i hk
      rcases List.mem_cons.1 h with rfl | h
      · right; rw [hk]
      · exact .inl (List.mem_cons_of_mem _ h)
    · rcases List.mem_cons.1 h with rfl | h
      · exact .inl (List.mem_cons_self ..)
      · exact (ih h).elim (fun h => .inl (List.mem_cons_of_mem _ h)) .inr

theorem length_replace (k v m : Str) (es : List Entry) : (replace k v m es).length = es.length := by
  have := congrArg List.length (replace_keys (k := k) (v := v) (m := m) (es := es))
  simpa using this

theorem step_good {os : List Op} {b : Baggage.Bag} (h : Good os b) (o : Op) (hm : Modest (os ++ [o])) : Good (os ++ [o]) (b.step o) := by
  cases o with
  | insert k v m =>
    have hkp := hm.entries k v m (by simp)
    have hcount := hm.count
    have hbytes := hm.bytes
    rw [inserts_append] at hcount
    rw [insertedBytes_append] at hbytes
    have hc := h.count
    have hb := h.bytes
    simp only at hcount hbytes
    have hinv : Inv (b.step (.insert k v m)) := inv_insert h.inv k v m
    simp only [Bag.step] at hinv ⊢
    unfold Bag.insert at hinv ⊢
    cases hf : find k b.inner with
    | some e =>
      rw [hf] at hinv
      have hlim : ¬ (b.contentLen + bytesSize k v m - bytesSize k e.value e.info > maxLen) := by simp only [bytesSize, maxLen]; omega
      simp only at hinv ⊢
      rw [if_neg hlim] at hinv ⊢
      refine ⟨hinv, ?_, ?_, fun k' => ?_, fun e' he' => ?_⟩
      · rw [length_replace, inserts_append]; simp only; omega
      · rw [insertedBytes_append]; simp only [bytesSize]; omega
      · rw [lastChange_append]
        simp only [Bag.get]
        rw [find_replace hf]
        by_cases hk : k = k'
        · subst hk; simp
        · rw [if_neg hk, if_neg (Ne.symm hk)]
          exact h.get k'
      · rcases mem_replace he' with h' | rfl
        · exact h.portable e' h'
        · exact hkp.2
    | none =>
      rw [hf] at hinv
      have hlim : ¬ (b.contentLen + bytesSize k v m > maxLen) := by simp only [bytesSize, maxLen]; omega
      simp only at hinv ⊢
      have hv : (!isKeyValid k) = false := by rw [(isKeyValid_iff k).2 hkp.1]; rfl
      have hl : (b.inner.length == maxPairs) = false := by rw [beq_eq_false_iff_ne]; simp only [maxPairs]; omega
      rw [hv, hl, if_neg (by simp), if_neg (by simp), if_neg hlim] at hinv ⊢
      refine ⟨hinv, ?_, ?_, fun k' => ?_, fun e' he' => ?_⟩
      · rw [inserts_append]; simp only [List.length_append, List.length_cons, List.length_nil]; omega
      · rw [insertedBytes_append]; simp only [bytesSize]; omega
      · rw [lastChange_append]
        simp only [Bag.get]
        rw [find_append (e := ⟨k, v, m⟩) hf]
        by_cases hk : k = k'
        · subst hk; simp
        · rw [if_neg hk, if_neg (by first | exact hk | exact Ne.symm hk)]
          exact h.get k'
      · rcases List.mem_append.1 he' with h' | h'
        · exact h.portable e' h'
        · rw [List.mem_singleton] at h'; subst h'; exact hkp.2
  | remove k =>
    have hinv : Inv (b.step (.remove k)) := inv_remove h.inv k
    simp only [Bag.step, Bag.remove] at hinv ⊢
    refine ⟨hinv, ?_, ?_, fun k' => ?_, fun e' he' => h.portable e' (List.mem_filter.1 he').1⟩
    · rw [inserts_append]; exact Nat.le_trans (List.length_filter_le ..) h.count
    · rw [insertedBytes_append]; exact h.bytes
    · rw [lastChange_append]
      simp only [Bag.get]
      rw [find_filter]
      by_cases hk : k = k'
      · subst hk; simp
      · rw [if_neg hk, if_neg (by first | exact hk | exact Ne.symm hk)]
        exact h.get k'

/-- What arrives at the other side of a request, whatever carries the header. -/
theorem request_good {U : Nat → Type} {os : List Op} {b : Baggage.Bag} (h : Good os b) (order : Order) (horder : ∀ es, (order es).Perm es) (base : Cx Baggage.Bag U)
    (ex : Extractor) (hget : b.inner ≠ [] → ex.get header = some (join [','] ((order b.inner).map member)))
    (he : b.inner = [] → ex.get header = none ∧ baggageOf base = Bag.new) : Good os (baggageOf (extract base ex)) := by
  by_cases hne : b.inner = []
  · obtain ⟨h1, h2⟩ := he hne
    have hx : extract base ex = base := by unfold extract; rw [h1]
    rw [hx, h2]
    refine ⟨inv_new, by simp [Bag.new], by simp [Bag.new], fun k => ?_, by simp [Bag.new]⟩
    rw [← h.get k]
    simp [Bag.get, Bag.new, hne]
  · have hb := horder b.inner
    have hn : ((order b.inner).map Entry.key).Nodup := (hb.map _).nodup_iff.2 h.inv.nodup
    have htot : totalSize (order b.inner) = totalSize b.inner := (hb.map _).sum_nat
    have hs : totalSize (order b.inner) ≤ b.contentLen := by rw [htot]; exact h.inv.size
    have hext : extract base ex = base.withBaggage ⟨order b.inner, totalSize (order b.inner)⟩ := by
      refine extract_members ?_ (fun e he => parseMember_member (h.portable e (hb.mem_iff.1 he)) (h.inv.keys e (hb.mem_iff.1 he)))
        (fun e he => not_mem_member_comma (h.portable e (hb.mem_iff.1 he))) hn (fun e he => h.inv.keys e (hb.mem_iff.1 he)) (by rw [hb.length_eq]; exact h.inv.count)
        (Nat.le_trans hs h.inv.len) _ (hget hne) base
      intro h
      rw [h] at hb
      exact hne (List.nil_perm.1 hb)
    rw [hext, baggageOf_withBaggage]
    refine ⟨⟨by show (order b.inner).length ≤ 64; rw [hb.length_eq]; exact h.inv.count, Nat.le_refl _, Nat.le_trans hs h.inv.len,
      fun e he => h.inv.keys e (hb.mem_iff.1 he), hn⟩, by show (order b.inner).length ≤ _; rw [hb.length_eq]; exact h.count, Nat.le_trans hs h.bytes, fun k => ?_,
      fun e he => h.portable e (hb.mem_iff.1 he)⟩
    rw [← h.get k]
    simp only [Bag.get]
    rw [find_perm hb hn k]

theorem inject_some {U : Nat → Type} (order : Order) (cx : Cx Baggage.Bag U) (b : Baggage.Bag) (hcx : baggageOf cx = b) :
    inject order cx = if b.inner = [] then [] else [(header, join [','] ((order b.inner).map member))] := by
  unfold inject
  simp only [hcx, List.isEmpty_iff]

theorem route_good {os : List Op} {b : Baggage.Bag} (h : Route os b) (hm : Modest os) : Good os b := by
  induction h with
  | start => exact ⟨inv_new, by simp [Bag.new], by simp [Bag.new], fun k => rfl, by simp [Bag.new]⟩
  | change o _ ih => exact step_good (ih hm.init) o hm
  | @request U os b order horder cx base hcx c he _ ih =>
    refine request_good (ih hm) order horder base _ (fun hne => ?_) (fun hne => ?_)
    · rw [inject_some order cx b hcx, if_neg hne]; exact lookup_set_self c header _
    · rw [inject_some order cx b hcx, if_pos hne]; exact he hne
  | @http U os b order horder cx base hcx r m he hi _ ih =>
    have hg := ih hm
    refine request_good hg order horder base _ (fun hne => ?_) (fun hne => ?_)
    · rw [inject_some order cx b hcx, if_neg hne, Http.http_get_setAll r m]
      · simp [lastSet]
      · intro kv hkv
        rw [List.mem_singleton] at hkv
        subst hkv
        refine ⟨Http.valid_baggage, Http.printable_join fun p hp' => ?_⟩
        obtain ⟨e, he', rfl⟩ := List.mem_map.1 hp'
        have he' := (horder _).mem_iff.1 he'
        unfold Bag.member
        have one : ∀ c : Char, (c = '\t' ∨ (' ' ≤ c ∧ c ≤ '~')) → Http.Printable [c] := fun c h d hd => by rw [List.mem_singleton] at hd; exact hd ▸ h
        refine Http.printable_append (Http.printable_append (Http.printable_append (Http.printable_append (Http.printable_encoded _) (one _ (.inr (by decide))))
          (Http.printable_encoded _)) ?_) ?_
        · split
          · intro c hc; simp at hc
          · exact one _ (.inr (by decide))
        · rw [(hg.portable e he').infoTrim]; exact hi e he'
    · rw [inject_some order cx b hcx, if_pos hne]; exact he hne

/-! ## Theorems -/

/-- C106. Along any route of services and requests, in which the services together insert no more than fits into a baggage, and only portable entries, each service finds for every
key what the last change of it by any earlier service says, as if all services had shared one map. Missing: entries that are not portable (C13), metadata that are not printable
over HTTP (C85), and what happens at the limits, see `route_limit_violated`. -/
theorem route_baggage_partial {os : List Op} {b : Baggage.Bag} (h : Route os b) (hm : Modest os) (k : Str) : b.get k = lastChange k os := (route_good h hm).get k

/-- C106: and it finds no more entries than there were insertions. -/
theorem route_size_partial {os : List Op} {b : Baggage.Bag} (h : Route os b) (hm : Modest os) : b.inner.length ≤ inserts os := (route_good h hm).count

/-- C106 is violated at the limits, where removed entries still count (C12): the same changes, whose content never exceeds the limits, leave the entry out when one service makes
them, and have it when there is a request before the last of them. -/
theorem route_limit_violated : ∃ (os : List Op) (k : Str) (b b' : Baggage.Bag), Route os b ∧ Route os b' ∧ (∀ n, totalSize (run (os.take n)).inner ≤ 8001)
    ∧ (∀ k v m, Op.insert k v m ∈ os → Token k ∧ Portable ⟨k, v, m⟩) ∧ b.get k = none ∧ b'.get k = lastChange k os ∧ (lastChange k os).isSome = true := by
  have hk : isKeyValid ['k'] = true := by decide
  have b1 : byteLen ['k'] = 1 := by decide
  have b0 : byteLen [] = 0 := by decide
  obtain ⟨x, hx, hp⟩ : ∃ x : Str, byteLen x = 8000 ∧ Portable ⟨['k'], x, []⟩ := by
    refine ⟨_, byteLen_replicate 8000, by decide, ?_, ?_, by decide, by decide, by decide, by decide⟩
    · generalize 8000 = n
      induction n with
      | zero => rfl
      | succ n ih => rw [List.replicate_succ]; simp only [noEscape] at ih ⊢; rw [ih]; rfl
    · have h : ∀ n, (List.replicate n 'x').dropWhile isWhitespace = List.replicate n 'x' := by
        intro n; cases n with
        | zero => rfl
        | succ n => rw [List.replicate_succ, List.dropWhile_cons_of_neg (by decide)]
      simp only [trim, trimEnd, trimStart, h, List.reverse_replicate]
  let os : List Op := [.insert ['k'] x [], .remove ['k'], .insert ['k'] x []]
  have r2 : run [.insert ['k'] x [], .remove ['k']] = ⟨[], 8001⟩ := by
    simp [run, Bag.step, Bag.insert, Bag.new, find, hk, bytesSize, hx, b1, b0, Bag.remove, maxLen, maxPairs]
  have r1 : run [.insert ['k'] x []] = ⟨[⟨['k'], x, []⟩], 8001⟩ := by
    simp [run, Bag.step, Bag.insert, Bag.new, find, hk, bytesSize, hx, b1, b0, maxLen, maxPairs]
  have r3 : run os = ⟨[], 8001⟩ := by
    show (run [.insert ['k'] x [], .remove ['k']]).step (.insert ['k'] x []) = _
    rw [r2]
    simp [Bag.step, Bag.insert, find, hk, bytesSize, hx, b1, b0, maxLen, maxPairs]
  have h1 : Route os (run os) := .change _ (.change _ (.change _ .start))
  have h2 : Route [.insert ['k'] x [], .remove ['k']] (⟨[], 8001⟩ : Baggage.Bag) := r2 ▸ .change _ (.change _ .start)
  let new : Cx Baggage.Bag (fun _ => Unit) := Ctx.Context.new
  have h3 := Route.request id (fun es => List.Perm.refl es) (new.withBaggage ⟨[], 8001⟩) new (baggageOf_withBaggage _ _) [] (fun _ => ⟨rfl, rfl⟩) h2
  have hb : baggageOf (extract new (Carrier.setAll [] (inject id (new.withBaggage ⟨[], 8001⟩))).toExtractor) = Bag.new := rfl
  rw [hb] at h3
  refine ⟨os, ['k'], _, _, h1, .change _ h3, fun n => ?_, ?_, ?_, ?_, ?_⟩
  · match n with
    | 0 => simp [run, Bag.new, totalSize]
    | 1 => show totalSize (run [.insert ['k'] x []]).inner ≤ _; rw [r1]; simp [totalSize, hx, b1, b0]
    | 2 => show totalSize (run [.insert ['k'] x [], .remove ['k']]).inner ≤ _; rw [r2]; simp [totalSize]
    | n + 3 => rw [List.take_of_length_le (by simp [os]), r3]; simp [totalSize]
  · intro k v m h
    simp only [os, List.mem_cons, List.not_mem_nil, or_false, Op.insert.injEq, reduceCtorEq, false_or] at h
    rcases h with ⟨rfl, rfl, rfl⟩ | ⟨rfl, rfl, rfl⟩ <;> exact ⟨(isKeyValid_iff _).1 hk, hp⟩
  · rw [r3]; rfl
  · simp [os, lastChange, Bag.step, Bag.insert, Bag.new, find, hk, bytesSize, hx, b1, b0, maxLen, maxPairs, Bag.get]
  · simp [os, lastChange]

/-- Two services change the baggage, with a request over a map and one over HTTP, also after everything was removed. -/
example : ∃ os b, Route os b ∧ Modest os ∧ os.length = 4 ∧ b.get "user".toList = some ("ü".toList, "m".toList) ∧ b.get "k".toList = none := by
  let new : Cx Baggage.Bag (fun _ => Unit) := Ctx.Context.new
  have h1 : Route [.insert "k".toList "1".toList [], .remove "k".toList] _ := .change _ (.change _ .start)
  have h2 := Route.request id (fun es => List.Perm.refl es) (new.withBaggage _) new (baggageOf_withBaggage _ _) [] (fun _ => ⟨rfl, rfl⟩) h1
  have h3 := Route.change (.insert "user".toList "a, b".toList []) h2
  have h4 := Route.change (.insert "user".toList "ü".toList "m".toList) h3
  have m4 : Modest _ := (⟨by decide, by decide +kernel, by
    intro k v m h
    simp only [List.mem_cons, List.not_mem_nil, or_false, Op.insert.injEq, reduceCtorEq, false_or] at h
    rcases h with ⟨rfl, rfl, rfl⟩ | ⟨rfl, rfl, rfl⟩ | ⟨rfl, rfl, rfl⟩ <;>
      exact ⟨(isKeyValid_iff _).1 (by decide), by decide, by decide, by decide, by decide, by decide, by decide, by decide⟩⟩ :
    Modest [.insert "k".toList "1".toList [], .remove "k".toList, .insert "user".toList "a, b".toList [], .insert "user".toList "ü".toList "m".toList])
  have h5 := Route.http id (fun es => List.Perm.refl es) (new.withBaggage _) new (baggageOf_withBaggage _ _) ⟨true⟩ [] (fun _ => ⟨rfl, rfl⟩)
    (by
      intro e he
      have he := List.mem_singleton.1 he
      subst he
      show ∀ c ∈ "m".toList, _
      decide) h4
  exact ⟨_, _, h5, m4, rfl, route_baggage_partial h5 m4 _, route_baggage_partial h5 m4 _⟩

end Otel.EndToEnd.Baggages
