import Verif.Spec.LdifPaging
import Verif.Props.LdifSearch
/-!
# Paged searches on the LDIF server
-/
namespace Idm

/-- The filter can be evaluated on the entry, and the scope if it is satisfied. -/
def Fine (C : CaseEnv) (fp : Packet) (r : SearchReq) (x : LEntry) : Prop :=
  ∃ b, applyFilter C x.visible fp = .ok (b, rcSuccess) ∧ (b = true → ∃ k, filterScope C r.baseDN (scopeNat r.scope) x.visible = (k, rcSuccess))

/-- A search without limits that succeeds has evaluated everything. -/
theorem searchPage_fine (V : Env) (fp : Packet) (r : SearchReq) (hl : r.sizeLimit ≤ 0) : ∀ (l : List LEntry) (count : Nat) (p : Page),
    searchPage V fp r none count l = .ok p → p.code = rcSuccess → ∀ x ∈ l, Fine V.C fp r x
  | [], _, _, _, _ => by simp
  | x :: xs, count, p, h, hc => by
    have ih := searchPage_fine V fp r hl xs
    have hl' : ¬ (r.sizeLimit > 0 ∧ count + 1 ≥ toU32 r.sizeLimit) := fun h => by omega
    rw [searchPage] at h
    simp only [List.forall_mem_cons]
    rcases ha : applyFilter V.C x.visible fp with ⟨b, code⟩ | e | _ | _
    · rw [ha] at h
      dsimp only at h
      by_cases h1 : code ≠ rcSuccess
      · rw [if_pos h1] at h; cases h; exact absurd hc h1
      · rw [if_neg h1] at h
        rw [Classical.not_not] at h1
        subst h1
        cases b with
        | false => exact ⟨⟨false, ha, by simp⟩, ih _ p h hc⟩
        | true =>
          rcases hs : filterScope V.C r.baseDN (scopeNat r.scope) x.visible with ⟨k, code⟩
          rw [hs] at h
          simp only [Bool.not_true, Bool.false_eq_true, if_false] at h
          by_cases h2 : code ≠ rcSuccess
          · rw [if_pos h2] at h; cases h; exact absurd hc h2
          · rw [if_neg h2] at h
            rw [Classical.not_not] at h2
            subst h2
            refine ⟨⟨true, ha, fun _ => ⟨k, hs⟩⟩, ?_⟩
            cases k with
            | false => exact ih _ p h hc
            | true =>
              simp only [Bool.not_true, Bool.false_eq_true, if_false, Option.any_none, if_neg hl'] at h
              cases hp : searchPage V fp r none (count + 1) xs with
              | ok q => rw [hp] at h; cases h; exact ih _ q hp hc
              | err e => rw [hp] at h; cases h
              | panic => rw [hp] at h; cases h
              | hang => rw [hp] at h; cases h
    all_goals rw [ha] at h; cases h

/-- What is sent for the entries taken from the producer. -/
def sent (C : CaseEnv) (fp : Packet) (r : SearchReq) (l : List LEntry) : List Entry :=
  (l.filter (kept C fp r)).map fun x => filterAttributes C r.attrs x.visible

theorem sent_append (C : CaseEnv) (fp : Packet) (r : SearchReq) (l l' : List LEntry) : sent C fp r (l ++ l') = sent C fp r l ++ sent C fp r l' := by
  simp [sent]

theorem searchPage_unlimited (V : Env) (fp : Packet) (r : SearchReq) (hl : r.sizeLimit ≤ 0) : ∀ (l : List LEntry) (count : Nat),
    (∀ x ∈ l, Fine V.C fp r x) → searchPage V fp r none count l = .ok ⟨sent V.C fp r l, [], true, rcSuccess⟩
  | [], _, _ => rfl
  | x :: xs, count, h => by
    have ih := fun c => searchPage_unlimited V fp r hl xs c fun y hy => h y (by simp [hy])
    obtain ⟨b, hb, hk⟩ := h x (by simp)
    have hl' : ¬ (r.sizeLimit > 0 ∧ count + 1 ≥ toU32 r.sizeLimit) := fun h => by omega
    rw [searchPage, hb]
    cases b with
    | false => simp [ih, sent, kept, hb]
    | true =>
      obtain ⟨k, hk⟩ := hk rfl
      cases k <;> simp [hk, ih, hl', sent, kept, hb, Page.cons]

/-- A page takes entries until there are `n` of them or no more. -/
theorem searchPage_paged (V : Env) (fp : Packet) (r : SearchReq) (hl : r.sizeLimit ≤ 0) (n : Nat) : ∀ (l : List LEntry) (count : Nat), count < n →
    (∀ x ∈ l, Fine V.C fp r x) → ∃ pre rest eof, l = pre ++ rest ∧ searchPage V fp r (some n) count l = .ok ⟨sent V.C fp r pre, rest, eof, rcSuccess⟩ ∧
      (eof = false → (sent V.C fp r pre).length + count = n) ∧ (eof = true → rest = [] ∧ (sent V.C fp r pre).length + count < n)
  | [], count, hc, _ => ⟨[], [], true, rfl, rfl, by simp, by simpa [sent] using hc⟩
  | x :: xs, count, hc, h => by
    have ih := fun c hc => searchPage_paged V fp r hl n xs c hc fun y hy => h y (by simp [hy])
    obtain ⟨b, hb, hk⟩ := h x (by simp)
    have hl' : ¬ (r.sizeLimit > 0 ∧ count + 1 ≥ toU32 r.sizeLimit) := fun h => by omega
    have skip : kept V.C fp r x = false → searchPage V fp r (some n) count (x :: xs) = searchPage V fp r (some n) count xs →
        ∃ pre rest eof, x :: xs = pre ++ rest ∧ searchPage V fp r (some n) count (x :: xs) = .ok ⟨sent V.C fp r pre, rest, eof, rcSuccess⟩ ∧
      (eof = false → (sent V.C fp r pre).length + count = n) ∧ (eof = true → rest = [] ∧ (sent V.C fp r pre).length + count < n) := by
      intro k1 k2
      obtain ⟨pre, rest, eof, e1, e2, e3, e4⟩ := ih count hc
      have hs : sent V.C fp r (x :: pre) = sent V.C fp r pre := by simp [sent, k1]
      exact ⟨x :: pre, rest, eof, by rw [e1]; rfl, by rw [k2, e2, hs], by rwa [hs], by rwa [hs]⟩
    cases b with
    | false => exact skip (by simp [kept, hb]) (by rw [searchPage, hb]; simp)
    | true =>
      obtain ⟨k, hk⟩ := hk rfl
      cases k with
      | false => exact skip (by simp [kept, hk]) (by rw [searchPage, hb]; simp [hk])
      | true =>
        have hkept : kept V.C fp r x = true := by simp [kept, hb, hk]
        by_cases hn : count + 1 ≥ n
        · refine ⟨[x], xs, false, rfl, ?_, fun _ => ?_, by simp⟩
          · rw [searchPage, hb]; simp [hk, hn, sent, hkept]
          · simp [sent, hkept]; omega
        · obtain ⟨pre, rest, eof, e1, e2, e3, e4⟩ := ih (count + 1) (by omega)
          have hs : (sent V.C fp r (x :: pre)).length = (sent V.C fp r pre).length + 1 := by simp [sent, hkept]
          refine ⟨x :: pre, rest, eof, by rw [e1]; rfl, ?_, fun he => ?_, fun he => ⟨(e4 he).1, ?_⟩⟩
          · rw [searchPage, hb]
            simp [hk, hn, hl', e2, Page.cons, sent, hkept]
          · have := e3 he; omega
          · have := (e4 he).2; omega

/-- What is kept under a cookie. -/
def left (k : Str) (ps : List (Str × List LEntry)) : Option (List LEntry) := (ps.find? fun p => p.1 = k).map (·.2)

theorem left_drop {k k' : Str} (h : k' ≠ k) (ps : List (Str × List LEntry)) : left k (dropCookie k' ps) = left k ps := by
  unfold left dropCookie
  induction ps with
  | nil => rfl
  | cons p ps ih =>
    by_cases h1 : p.1 = k'
    · have h2 : p.1 ≠ k := fun e => h (h1 ▸ e)
      simp [h1, h]
      simpa using ih
    · by_cases h2 : p.1 = k
      · have h3 : k ≠ k' := fun e => h e.symm
        rw [List.filter_cons_of_pos (by simpa using h1), List.find?_cons_of_pos (by simpa using h2), List.find?_cons_of_pos (by simpa using h2)]
      · rw [List.filter_cons_of_pos (by simpa using h1), List.find?_cons_of_neg (by simpa using h2), List.find?_cons_of_neg (by simpa using h2)]
        exact ih

section
variable {V : Env} {W : WalkOrd} {cfg : LdifCfg} {g : Nat} {stats : Bool}

/-- A search that does not present the cookie leaves its search alone. -/
theorem ldifSearch_other (bound : Str) (r : SearchReq) (st : LdifSt) (k : Str) (hk : ∀ n, pagingOf r ≠ some (n, k)) (hc : st.cookie st.nCookie ≠ k) :
    left k (ldifSearch V W cfg bound r st).2.pagings = left k st.pagings ∧ (ldifSearch V W cfg bound r st).2.cookie = st.cookie ∧
      st.nCookie ≤ (ldifSearch V W cfg bound r st).2.nCookie := by
  have hsrc : ∀ base fs, let o := pageSource V W base fs (pagingOf r) st
      (left k o.2.2.pagings = left k st.pagings ∧ o.2.2.cookie = st.cookie ∧ st.nCookie ≤ o.2.2.nCookie) ∧
      ((pagingOf r).isSome = true → o.2.1 ≠ k) := by
    intro base fs o
    have ho : o = pageSource V W base fs (pagingOf r) st := rfl
    rcases hp : pagingOf r with _ | ⟨n, k'⟩
    · rw [hp] at ho
      rw [ho]
      exact ⟨⟨rfl, rfl, Nat.le_refl _⟩, by simp⟩
    · have hk' : k' ≠ k := fun e => hk n (e ▸ hp)
      rw [hp] at ho
      cases k' with
      | nil =>
        rw [ho]
        refine ⟨⟨?_, rfl, Nat.le_succ _⟩, fun _ => hc⟩
        show left k ((st.cookie st.nCookie, _) :: dropCookie (st.cookie st.nCookie) st.pagings) = _
        rw [show left k ((st.cookie st.nCookie, _) :: dropCookie (st.cookie st.nCookie) st.pagings) =
          left k (dropCookie (st.cookie st.nCookie) st.pagings) by simp [left, hc]]
        exact left_drop hc _
      | cons c cs =>
        simp only [pageSource] at ho
        split at ho
        · rw [ho]; exact ⟨⟨rfl, rfl, Nat.le_refl _⟩, fun _ => hk'⟩
        · split at ho
          · rw [ho]; exact ⟨⟨left_drop hk' _, rfl, Nat.le_refl _⟩, fun _ => hk'⟩
          · rename_i l hf hl
            have e : ∀ s : LdifSt, s = (if l = [] then { st with nLate := st.nLate + 1 } else st) →
                s.pagings = st.pagings ∧ s.cookie = st.cookie ∧ s.nCookie = st.nCookie := by
              intro s hs
              rw [hs]
              split <;> exact ⟨rfl, rfl, rfl⟩
            obtain ⟨e1, e2, e3⟩ := e _ rfl
            split at ho
            · rw [ho]; exact ⟨⟨by rw [e1], e2, by rw [e3]; exact Nat.le_refl _⟩, fun _ => hk'⟩
            · rw [ho]; exact ⟨⟨left_drop hk' _, e2, by show _ ≤ LdifSt.nCookie _; rw [e3]; exact Nat.le_refl _⟩, fun _ => hk'⟩
  unfold ldifSearch
  dsimp only
  split
  · exact ⟨rfl, rfl, Nat.le_refl _⟩
  · cases indexFilter V.C r.filter with
    | err e => exact ⟨rfl, rfl, Nat.le_refl _⟩
    | panic => exact ⟨rfl, rfl, Nat.le_refl _⟩
    | hang => exact ⟨rfl, rfl, Nat.le_refl _⟩
    | ok fs =>
      dsimp only
      split
      · exact ⟨rfl, rfl, Nat.le_refl _⟩
      · have hsrc := hsrc (V.C.lower r.baseDN) fs
        dsimp only at hsrc
        generalize pageSource V W (V.C.lower r.baseDN) fs (pagingOf r) st = x at hsrc ⊢
        obtain ⟨src, k1, st'⟩ := x
        obtain ⟨hs, hk1⟩ := hsrc
        cases src with
        | unknown => exact hs
        | nil_ => dsimp only; cases compile r.filter <;> exact hs
        | from_ l =>
          dsimp only
          cases compile r.filter with
          | none => exact hs
          | some fp =>
            dsimp only
            cases searchPage V fp r ((pagingOf r).map (·.1)) 0 l with
            | err e => exact hs
            | panic => exact hs
            | hang => exact hs
            | ok p =>
              have hs' : ∀ s : LdifSt, s = (if (pagingOf r).isSome then
                  { st' with pagings := (if p.eof then [] else [(k1, p.rest)]) ++ dropCookie k1 st'.pagings } else st') →
                  left k s.pagings = left k st.pagings ∧ s.cookie = st.cookie ∧ st.nCookie ≤ s.nCookie := by
                intro s e
                rw [e]
                split
                · rename_i hsome
                  refine ⟨?_, hs.2⟩
                  rw [← hs.1]
                  dsimp only
                  split
                  · rw [List.nil_append]; exact left_drop (hk1 hsome) _
                  · rw [show left k ([(k1, p.rest)] ++ dropCookie k1 st'.pagings) = left k (dropCookie k1 st'.pagings) by simp [left, hk1 hsome]]
                    exact left_drop (hk1 hsome) _
                · exact hs
              dsimp only
              split
              · exact hs' _ rfl
              · exact hs' _ rfl

theorem decodeControls_mem : ∀ (ps : List Packet) (cs : List Control), decodeControls V ps = .ok cs → ∀ c ∈ cs, ∃ p ∈ ps, V.control p = .ok c
  | [], cs, h => by simp [decodeControls] at h; subst h; simp
  | p :: ps, cs, h => by
    rw [decodeControls] at h
    cases hp : V.control p with
    | err e =>
      rw [hp] at h
      intro c hc
      obtain ⟨q, hq, e⟩ := decodeControls_mem ps cs h c hc
      exact ⟨q, by simp [hq], e⟩
    | panic => rw [hp] at h; cases h
    | hang => rw [hp] at h; cases h
    | ok c0 =>
      rw [hp] at h
      dsimp only at h
      cases hr : decodeControls V ps with
      | ok rest =>
        simp [hr] at h
        subst h
        intro c hc
        rcases List.mem_cons.1 hc with rfl | hc
        · exact ⟨p, by simp, hp⟩
        · obtain ⟨q, hq, e⟩ := decodeControls_mem ps rest hr c hc
          exact ⟨q, by simp [hq], e⟩
      | err e => simp [hr] at h
      | panic => simp [hr] at h
      | hang => simp [hr] at h

theorem pagingOf_mem {r : SearchReq} {n : Nat} {k : Str} (h : pagingOf r = some (n, k)) : .paging n k ∈ r.controls := by
  unfold pagingOf at h
  split at h
  · cases h
  · rename_i n' k' rest hf
    split at h
    · cases h
    · cases h
      have := List.mem_cons_self (a := (n, k)) (l := rest)
      rw [← hf] at this
      obtain ⟨c, hc, e⟩ := List.mem_filterMap.1 this
      cases c with
      | paging n' k' => simp at e; obtain ⟨rfl, rfl⟩ := e; exact hc
      | other _ => simp at e

/-- A packet that does not present the cookie leaves its search alone. -/
theorem packet_other (o : Oracle) (p : Packet) (bound : Str) (st : LdifSt) (k : Str) (hk : ¬ Presents V p k) (hc : st.cookie st.nCookie ≠ k) :
    let st' := (handlePacket V (ldifSrv V W cfg g stats) o p bound st).st
    left k st'.pagings = left k st.pagings ∧ st'.cookie = st.cookie ∧ st.nCookie ≤ st'.nCookie := by
  intro st'
  have hst : st' = (handlePacket V (ldifSrv V W cfg g stats) o p bound st).st := rfl
  by_cases hs : st' = st
  · rw [hs]; exact ⟨rfl, rfl, Nat.le_refl _⟩
  have hpc := ldif_packet_cases (V := V) (W := W) (cfg := cfg) (g := g) (stats := stats) o p bound st
  dsimp only at hpc
  have h := handlePacket_cases V (ldifSrv V W cfg g stats) o p bound st
  rcases hpc with ⟨id, req, controls, r, hm, ht, hr, ho⟩ | ⟨h, -⟩
  · generalize hout : handlePacket V (ldifSrv V W cfg g stats) o p bound st = out at h ho hst
    have other : ∀ t, t ≠ 3 → ∀ id' req', Message p id' req' → req'.tag = t → False := by
      intro t ht' id' req' hm' e
      obtain ⟨-, rfl⟩ := message_unique hm hm'
      exact ht' (e.symm.trans ht)
    cases h with
    | closed => exact absurd (hst.trans rfl) hs
    | crash => exact absurd hst hs
    | hang => exact absurd hst hs
    | addHang => exact absurd hst hs
    | add _ _ hm' e => exact (other 8 (by decide) _ _ hm' e).elim
    | delete _ _ hm' e => exact (other 10 (by decide) _ _ hm' e).elim
    | modify _ _ hm' e => exact (other 6 (by decide) _ _ hm' e).elim
    | modifyDN _ _ hm' e => exact (other 12 (by decide) _ _ hm' e).elim
    | compare => exact absurd (hst.trans rfl) hs
    | bind _ _ hm' e => exact (other 0 (by decide) _ _ hm' e).elim
    | extended _ _ hm' e => exact (other 23 (by decide) _ _ hm' e).elim
    | search id' req' controls' hm' ht' hd =>
      obtain ⟨-, rfl⟩ := message_unique hm hm'
      obtain ⟨m, more, hkids, hdec⟩ := hd
      rw [ldif_stepSearch] at hst
      cases hp : parseSearchRequest req controls' with
      | none => rw [hp] at hst; exact absurd hst hs
      | some r' =>
        rw [hp] at hst
        dsimp only at hst
        rw [ldifOut_st] at hst
        rw [hst]
        refine ldifSearch_other bound r' st k (fun n hn => hk ?_) hc
        have hrc : r'.controls = controls' := parseSearchRequest_controls hp
        have hmem := pagingOf_mem hn
        rw [hrc] at hmem
        obtain ⟨q, hq, e⟩ := decodeControls_mem _ _ hdec _ hmem
        refine ⟨q, ?_, n, e⟩
        unfold controlsOf
        rw [hkids]
        cases more with
        | nil => simp at hq
        | cons c rest => simpa using hq
  · exact absurd h hs

end
end Idm
