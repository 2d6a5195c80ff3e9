import Verif.Model.Uid

/-! # C18, C19: unique identifiers -/

namespace Knp.Props
open Knp Knp.Uid

/-! ## C19: ordering -/

private theorem bytesLt_irrefl (a : List UInt8) : bytesLt a a = false := by
  induction a with
  | nil => rfl
  | cons x xs ih => simp [bytesLt, ih]

private theorem bytesLt_trans (a b c : List UInt8) (h1 : bytesLt a b = true)
    (h2 : bytesLt b c = true) : bytesLt a c = true := by
  induction a generalizing b c with
  | nil =>
    cases b with
    | nil => simp [bytesLt] at h1
    | cons y ys =>
      cases c with
      | nil => simp [bytesLt] at h2
      | cons z zs => rfl
  | cons x xs ih =>
    cases b with
    | nil => simp [bytesLt] at h1
    | cons y ys =>
      cases c with
      | nil => simp [bytesLt] at h2
      | cons z zs =>
        simp only [bytesLt] at h1 h2 ⊢
        by_cases hxy : x < y
        · by_cases hyz : y < z
          · simp [UInt8.lt_trans hxy hyz]
          · simp only [hyz, if_false] at h2
            by_cases hzy : z < y
            · simp [hzy] at h2
            · have hyz' : y = z := UInt8.le_antisymm (UInt8.not_lt.1 hzy) (UInt8.not_lt.1 hyz)
              subst hyz'
              simp [hxy]
        · simp only [hxy, if_false] at h1
          by_cases hyx : y < x
          · simp [hyx] at h1
          · have hxy' : x = y := UInt8.le_antisymm (UInt8.not_lt.1 hyx) (UInt8.not_lt.1 hxy)
            subst hxy'
            simp only [hyx, if_false] at h1
            by_cases hxz : x < z
            · simp [hxz]
            · simp only [hxz, if_false] at h2 ⊢
              by_cases hzx : z < x
              · simp [hzx] at h2
              · simp only [hzx, if_false] at h2 ⊢
                exact ih _ _ h1 h2

private theorem bytesLt_total (a b : List UInt8) (h : a ≠ b) :
    bytesLt a b = true ∨ bytesLt b a = true := by
  induction a generalizing b with
  | nil =>
    cases b with
    | nil => exact absurd rfl h
    | cons y ys => left; rfl
  | cons x xs ih =>
    cases b with
    | nil => right; rfl
    | cons y ys =>
      simp only [bytesLt]
      by_cases hxy : x < y
      · simp [hxy]
      · by_cases hyx : y < x
        · simp [hyx]
        · have hxy' : x = y := UInt8.le_antisymm (UInt8.not_lt.1 hyx) (UInt8.not_lt.1 hxy)
          subst hxy'
          simp only [hxy, if_false]
          exact ih ys (by intro hh; exact h (by rw [hh]))

/-- C19: `operator<` on UIDs is a strict total order compatible with `==`/`!=`, and `==` is equality
of the UUIDs. -/
theorem C19_uid_strict_total_order :
    (∀ a : Uid, Uid.lt a a = false) ∧
    (∀ a b c : Uid, Uid.lt a b = true → Uid.lt b c = true → Uid.lt a c = true) ∧
    (∀ a b : Uid, Uid.lt a b = true ∨ Uid.eq a b = true ∨ Uid.lt b a = true) ∧
    (∀ a b : Uid, Uid.lt a b = true → Uid.lt b a = false ∧ Uid.eq a b = false) ∧
    (∀ a b : Uid, Uid.eq a b = true ↔ a = b) ∧
    (∀ a b : Uid, Uid.ne a b = !Uid.eq a b) := by
  have asymm : ∀ a b : Uid, Uid.lt a b = true → Uid.lt b a = false := by
    intro a b h
    cases h2 : Uid.lt b a with
    | false => rfl
    | true =>
      have := bytesLt_trans _ _ _ h2 h
      unfold Uid.lt at *
      rw [bytesLt_irrefl] at this
      exact absurd this (by decide)
  refine ⟨bytesLt_irrefl, ?_, ?_, ?_, ?_, ?_⟩
  · intro a b c h1 h2
    exact bytesLt_trans _ _ _ h2 h1
  · intro a b
    by_cases h : a = b
    · right; left; simp [Uid.eq, h]
    · rcases bytesLt_total a b h with h1 | h1
      · right; right; exact h1
      · left; exact h1
  · intro a b h
    refine ⟨asymm a b h, ?_⟩
    cases he : Uid.eq a b with
    | false => rfl
    | true =>
      simp only [Uid.eq, beq_iff_eq] at he
      subst he
      unfold Uid.lt at h
      rw [bytesLt_irrefl] at h
      exact absurd h (by decide)
  · intro a b
    simp only [Uid.eq, beq_iff_eq]
    exact eq_comm
  · intro a b; rfl

/-- C19: the order is the byte-lexicographic order *reversed* (so iteration over an ordered container
of UIDs is in descending numeric order). -/
theorem C19_uid_order_is_reversed (a b : UInt8) (rest rest' : List UInt8) (h : a < b) :
    Uid.lt (b :: rest) (a :: rest') = true := by
  simp [Uid.lt, bytesLt, h]

example : Uid.lt (encode 5) (encode 3) = true ∧ Uid.lt (encode 3) (encode 5) = false := by decide

/-! ## C18: the sequential generator -/

private theorem encLoop_inj (n a b : Nat) (ha : a < 256 ^ n) (hb : b < 256 ^ n)
    (h : encLoop n a = encLoop n b) : a = b := by
  induction n generalizing a b with
  | zero => simp at ha hb; omega
  | succ n ih =>
    simp only [encLoop, List.cons.injEq] at h
    obtain ⟨h1, h2⟩ := h
    have hand : ∀ x : Nat, x &&& 255 = x % 256 := fun x => Nat.and_two_pow_sub_one_eq_mod x 8
    have hshift : ∀ x : Nat, x >>> 8 = x / 256 := fun x => Nat.shiftRight_eq_div_pow x 8
    rw [hand, hand] at h1
    rw [hshift, hshift] at h2
    have hpow : 256 ^ (n + 1) = 256 ^ n * 256 := Nat.pow_succ ..
    have e2 := ih (a / 256) (b / 256)
      (Nat.div_lt_of_lt_mul (by rw [Nat.mul_comm]; omega))
      (Nat.div_lt_of_lt_mul (by rw [Nat.mul_comm]; omega)) h2
    have e1 : a % 256 = b % 256 := by
      have := congrArg UInt8.toNat h1
      simp only [UInt8.toNat_ofNat'] at this
      omega
    omega

private theorem encode_inj (a b : Nat) (ha : a < two64) (hb : b < two64)
    (h : encode a = encode b) : a = b := by
  unfold encode at h
  exact encLoop_inj 8 a b (by unfold two64 at ha; omega) (by unfold two64 at hb; omega)
    (List.append_cancel_right h)

/-- number of requests started in a schedule -/
def requests (sched : List GenAction) : Nat :=
  sched.countP (fun a => match a with | .fetch _ => true | .finish _ => false)

private theorem takeOut_perm (t c : Nat) (l l' : List (Nat × Nat)) (h : takeOut t l = some (c, l')) :
    (c :: l'.map Prod.snd).Perm (l.map Prod.snd) := by
  induction l generalizing c l' with
  | nil => simp [takeOut] at h
  | cons p l ih =>
    obtain ⟨t1, c1⟩ := p
    unfold takeOut at h
    by_cases ht : t1 = t
    · simp only [ht, if_true, Option.some.injEq, Prod.mk.injEq] at h
      obtain ⟨rfl, rfl⟩ := h
      simp
    · simp only [ht, if_false] at h
      cases h2 : takeOut t l with
      | none => simp [h2] at h
      | some r =>
        obtain ⟨c2, l2⟩ := r
        simp only [h2, Option.some.injEq, Prod.mk.injEq] at h
        obtain ⟨rfl, rfl⟩ := h
        have := ih _ _ h2
        simp only [List.map_cons]
        exact (List.Perm.swap _ _ _).trans (List.Perm.cons _ this)

/-- every value handed out or in flight is one of the first `k` counter values after `v` -/
private def GInv (v k : Nat) (s : GenState) : Prop :=
  s.counter = (v + k) % two64 ∧
  ∃ tk : List Nat, s.returned = tk.map encode ∧
    (s.inflight.map Prod.snd ++ tk).Perm ((List.range k).map (fun i => (v + i) % two64))

private theorem ginv_run (v : Nat) (sched : List GenAction) (k : Nat) (s : GenState)
    (hi : GInv v k s) : GInv v (k + requests sched) (genRun s sched) := by
  induction sched generalizing k s with
  | nil => simpa [genRun, requests] using hi
  | cons a as ih =>
    obtain ⟨hc, tk, hr, hp⟩ := hi
    have hstep : GInv v (k + requests [a]) (genStep s a) := by
      cases a with
      | fetch t =>
        have e : requests [GenAction.fetch t] = 1 := rfl
        rw [e]
        refine ⟨?_, tk, hr, ?_⟩
        · simp only [genStep, hc]
          unfold two64
          omega
        · simp only [genStep, List.map_cons, List.cons_append, List.range_succ, List.map_append,
            List.map_nil]
          rw [hc]
          refine (List.Perm.cons _ hp).trans ?_
          exact (List.perm_append_singleton _ _).symm
      | finish t =>
        have e : requests [GenAction.finish t] = 0 := rfl
        rw [e, Nat.add_zero]
        simp only [genStep]
        cases h2 : takeOut t s.inflight with
        | none => exact ⟨hc, tk, hr, hp⟩
        | some r =>
          obtain ⟨c, l⟩ := r
          refine ⟨hc, c :: tk, by simp [hr], ?_⟩
          have hperm := takeOut_perm t c _ _ h2
          refine List.Perm.trans ?_ hp
          refine List.Perm.trans ?_ (List.Perm.append_right tk hperm)
          simp only [List.cons_append]
          exact List.perm_middle
    have := ih (k + requests [a]) (genStep s a) hstep
    have e : requests (a :: as) = requests [a] + requests as := by
      unfold requests
      have : a :: as = [a] ++ as := rfl
      rw [this, List.countP_append]
    rw [e, ← Nat.add_assoc]
    exact this

/-- C18: under every interleaving of any number of threads, as long as no more than `2^64 - 1`
requests are made since start, all returned UIDs are pairwise distinct and none is nil. -/
theorem C18_sequential_uids_unique (sched : List GenAction) (h : requests sched ≤ two64 - 1) :
    (genRun (genInit 1) sched).returned.Nodup ∧
    ∀ u ∈ (genRun (genInit 1) sched).returned, Uid.toBool u = true := by
  have hi : GInv 1 0 (genInit 1) := ⟨by decide, [], rfl, by simp [genInit]⟩
  obtain ⟨_, tk, hr, hp⟩ := ginv_run 1 sched 0 _ hi
  rw [Nat.zero_add] at hp
  have hbound : ∀ i ∈ List.range (requests sched), (1 + i) % two64 = 1 + i := by
    intro i hi
    have := List.mem_range.1 hi
    unfold two64 at h ⊢
    omega
  have hlist : (List.range (requests sched)).map (fun i => (1 + i) % two64)
      = (List.range (requests sched)).map (fun i => 1 + i) := List.map_congr_left hbound
  rw [hlist] at hp
  have hmem : ∀ c ∈ tk, 1 ≤ c ∧ c < two64 := by
    intro c hc
    have := (hp.mem_iff (a := c)).1 (List.mem_append_right _ hc)
    simp only [List.mem_map, List.mem_range] at this
    obtain ⟨i, hi, rfl⟩ := this
    unfold two64 at h ⊢
    omega
  have hnd : tk.Nodup := by
    have h1 : ((List.range (requests sched)).map (fun i => 1 + i)).Nodup := by
      refine List.Pairwise.map _ ?_ List.nodup_range
      intro a b hab; omega
    exact (List.nodup_append.1 (hp.nodup_iff.2 h1)).2.1
  rw [hr]
  refine ⟨?_, ?_⟩
  · clear hp hr hi
    induction tk with
    | nil => simp
    | cons c tk ih =>
      have hnd' := List.nodup_cons.1 hnd
      rw [List.map_cons, List.nodup_cons]
      refine ⟨?_, ih (fun x hx => hmem x (List.mem_cons_of_mem _ hx)) hnd'.2⟩
      intro hmem2
      obtain ⟨d, hd, he⟩ := List.mem_map.1 hmem2
      have := encode_inj d c (hmem d (List.mem_cons_of_mem _ hd)).2 (hmem c (by simp)).2 he
      subst this
      exact hnd'.1 hd
  · intro u hu
    obtain ⟨c, hc, rfl⟩ := List.mem_map.1 hu
    cases hb : Uid.toBool (encode c) with
    | true => rfl
    | false =>
      simp only [Uid.toBool, Bool.not_eq_false', beq_iff_eq] at hb
      have h0 : encode 0 = Uid.nil := by decide
      have := encode_inj c 0 (hmem c hc).2 (by decide) (by rw [hb, h0])
      have := (hmem c hc).1
      omega

/-- C18: the bound is sharp – the request after the last counter value returns the nil UID, and
`reset` makes the generator repeat itself. -/
theorem C18_bound_is_sharp :
    (genRun (genInit (two64 - 1)) [.fetch 0, .finish 0, .fetch 0, .finish 0]).returned.head?
      = some Uid.nil := by decide

-- three threads, interleaved, two calls overlapping
example : (genRun (genInit 1) [.fetch 0, .fetch 1, .finish 1, .fetch 2, .finish 0, .finish 2]).returned
      = [encode 3, encode 1, encode 2]
    ∧ requests [.fetch 0, .fetch 1, .finish 1, .fetch 2, .finish 0, .finish 2] ≤ two64 - 1 := by
  decide

end Knp.Props
