import Verif.Model.Router
import Verif.Spec.Router
import Verif.Props.Route
import Verif.Props.BoltWrite
/-!
# C97: the package `ldapserver` as a library
-/
namespace Idm

theorem find_key {α : Type} {fns : List (Str × α)} (hn : OnePerSuffix fns) {s : Str} {f : α} (h : (s, f) ∈ fns) :
    fns.find? (fun p => decide (p.1 = s)) = some (s, f) := by
  induction fns with
  | nil => cases h
  | cons a fns ih =>
    simp only [OnePerSuffix, List.map_cons, List.nodup_cons] at hn
    rcases List.mem_cons.1 h with rfl | h
    · simp
    · have : a.1 ≠ s := fun e => hn.1 (e ▸ List.mem_map_of_mem (f := (·.1)) h)
      rw [List.find?_cons_of_neg (by simpa using this)]
      exact ih hn.2 h

theorem responsible_route {fns : List Str} {s name : Str} (h : Responsible fns s name) : routeFunc name fns = s := by
  obtain ⟨h1, h2, h3⟩ := h
  rcases C35_most_commas name fns with ⟨e, h⟩ | ⟨e, hs, before, rest, hf, hb, hr⟩
  · rw [e]
    apply Decidable.byContradiction
    intro hne
    exact h s h1 (fun e => hne e.symm) h2
  · apply Decidable.byContradiction
    intro hne
    have hm : routeFunc name fns ∈ before ++ routeFunc name fns :: rest := by simp
    rw [← hf] at hm
    rcases h3 _ hm hne hs with e' | hlt
    · exact e e'
    · have hs0 : s ≠ [] := by rintro rfl; simp at hlt
      rw [hf] at h1
      rcases List.mem_append.1 h1 with h1 | h1
      · have := hb s h1 hs0 h2; omega
      · rcases List.mem_cons.1 h1 with e' | h1
        · exact hne e'.symm
        · have := hr s h1 hs0 h2; omega

theorem responsible_pick {α : Type} {fns : List (Str × α)} (hn : OnePerSuffix fns) {s name : Str} {f : α} (h : Responsible (fns.map (·.1)) s name)
    (hf : (s, f) ∈ fns) : pick fns name = some f := by
  unfold pick fnAt
  rw [responsible_route h, find_key hn hf]
  rfl

section
variable {σ : Type} {V : Env} {srv : Srv σ} {id : Int} {bound s : Str} {o : Oracle}

theorem answer_reply (tag : Nat) (x : Res (Nat × Bool) × σ) :
    reply id tag bound (codeOf x.1, x.2) = handlerAnswer id tag bound x := by
  obtain ⟨r, st⟩ := x
  cases r with
  | ok c => rfl
  | err e => cases e <;> rfl
  | panic => rfl
  | hang => rfl

/-- C97: an add request of somebody who is bound goes to the handler responsible for its name, as it was sent and with the identity of the
connection, and the client is told its result. (If the server does not count; if it does, no add is answered, C52.) -/
theorem C97_add (hs : srv.stats = false) (hn : OnePerSuffix srv.addFns) {dn : Str} (hp : parseDN V.C dn ≠ none) (attrs : List Attr)
    (hr : Responsible (srv.addFns.map (·.1)) s dn) {f : Str → AddReq → Act σ (Nat × Bool)} (hf : (s, f) ∈ srv.addFns) (hb : bound ≠ []) (st : σ) :
    handlePacket V srv o (wMsg id (wAdd ⟨dn, attrs⟩)) bound st = handlerAnswer id 9 bound (f bound ⟨dn, attrs⟩ st) := by
  obtain ⟨nm, hnm⟩ := Option.ne_none_iff_exists'.1 hp
  have h := write_packet V srv (.add dn attrs) (.inl hs) o id bound st
  simp only [Write.packet, Write.respTag] at h
  rw [h, handleAdd, if_neg hb, parseAdd_wire V.C dn attrs hnm]
  simp only [callFn, responsible_pick hn hr hf]
  exact answer_reply 9 _

/-- C97: the same for a delete request. -/
theorem C97_delete (hn : OnePerSuffix srv.deleteFns) {dn : Str} (hp : parseDN V.C dn ≠ none)
    (hr : Responsible (srv.deleteFns.map (·.1)) s dn) {f : Str → Str → Act σ (Nat × Bool)} (hf : (s, f) ∈ srv.deleteFns) (hb : bound ≠ []) (st : σ) :
    handlePacket V srv o (wMsg id (wDelete dn)) bound st = handlerAnswer id 11 bound (f bound dn st) := by
  obtain ⟨nm, hnm⟩ := Option.ne_none_iff_exists'.1 hp
  have h := write_packet V srv (.delete dn) (.inr (by nofun)) o id bound st
  simp only [Write.packet, Write.respTag] at h
  rw [h, handleDelete, if_neg hb, parseDelete_wire V.C dn hnm]
  simp only [callFn, responsible_pick hn hr hf]
  exact answer_reply 11 _

/-- C97: the same for a modify request. -/
theorem C97_modify (hn : OnePerSuffix srv.modifyFns) {dn : Str} (hp : parseDN V.C dn ≠ none) (cs : List Change)
    (hk : ∀ c ∈ cs, c.op ≤ 2) (hr : Responsible (srv.modifyFns.map (·.1)) s dn) {f : Str → ModifyReq → Act σ (Nat × Bool)}
    (hf : (s, f) ∈ srv.modifyFns) (hb : bound ≠ []) (st : σ) :
    handlePacket V srv o (wMsg id (wModify ⟨dn, cs⟩)) bound st = handlerAnswer id 7 bound (f bound ⟨dn, cs⟩ st) := by
  obtain ⟨nm, hnm⟩ := Option.ne_none_iff_exists'.1 hp
  have h := write_packet V srv (.modify dn cs) (.inr (by nofun)) o id bound st
  simp only [Write.packet, Write.respTag] at h
  rw [h, handleModify, if_neg hb, parseModify_wire V.C dn cs hnm hk]
  simp only [callFn, responsible_pick hn hr hf]
  exact answer_reply 7 _

/-- C97: the same for a rename; the handler is chosen by the old name. -/
theorem C97_rename (hn : OnePerSuffix srv.modifyDNFns) {dn rdn : Str} (hp : parseDN V.C dn ≠ none)
    (hq : parseDN V.C rdn ≠ none) (del : Bool) (hr : Responsible (srv.modifyDNFns.map (·.1)) s dn) {f : Str → ModifyDNReq → Act σ (Nat × Bool)}
    (hf : (s, f) ∈ srv.modifyDNFns) (hb : bound ≠ []) (st : σ) :
    handlePacket V srv o (wMsg id (wModifyDN ⟨dn, rdn, del⟩)) bound st = handlerAnswer id 13 bound (f bound ⟨dn, rdn, del⟩ st) := by
  obtain ⟨nm, hnm⟩ := Option.ne_none_iff_exists'.1 hp
  obtain ⟨rm, hrm⟩ := Option.ne_none_iff_exists'.1 hq
  have h := write_packet V srv (.rename dn rdn del) (.inr (by nofun)) o id bound st
  simp only [Write.packet, Write.respTag] at h
  rw [h, handleModifyDN, if_neg hb, parseModifyDN_wire V.C dn rdn del hnm hrm]
  simp only [callFn, responsible_pick hn hr hf]
  exact answer_reply 13 _

/-- C97: without a handler for the name a write request is refused (unwillingToPerform), and so is every write of an anonymous client
(insufficientAccessRights). Adds only if the server does not count. -/
theorem C97_no_handler {dn : Str} (hp : parseDN V.C dn ≠ none) (st : σ) :
    (bound ≠ [] → (∀ k ∈ srv.deleteFns.map (·.1), ¬ k <:+ dn) →
      handlePacket V srv o (wMsg id (wDelete dn)) bound st = ⟨[.result id 11 53], .go bound, st⟩) ∧
    (bound ≠ [] → srv.stats = false → (∀ k ∈ srv.addFns.map (·.1), ¬ k <:+ dn) → ∀ attrs,
      handlePacket V srv o (wMsg id (wAdd ⟨dn, attrs⟩)) bound st = ⟨[.result id 9 53], .go bound, st⟩) ∧
    (bound ≠ [] → (∀ k ∈ srv.modifyFns.map (·.1), ¬ k <:+ dn) → ∀ cs : List Change, (∀ c ∈ cs, c.op ≤ 2) →
      handlePacket V srv o (wMsg id (wModify ⟨dn, cs⟩)) bound st = ⟨[.result id 7 53], .go bound, st⟩) ∧
    (bound ≠ [] → (∀ k ∈ srv.modifyDNFns.map (·.1), ¬ k <:+ dn) → ∀ rdn del, parseDN V.C rdn ≠ none →
      handlePacket V srv o (wMsg id (wModifyDN ⟨dn, rdn, del⟩)) bound st = ⟨[.result id 13 53], .go bound, st⟩) ∧
    (∀ w : Write, srv.stats = false ∨ w.respTag ≠ 9 → handlePacket V srv o (wMsg id w.packet) [] st = ⟨[.result id w.respTag 50], .go [], st⟩) := by
  have none_ : ∀ {α : Type} (fns : List (Str × α)), (∀ k ∈ fns.map (·.1), ¬ k <:+ dn) → pick fns dn = none := by
    intro α fns h
    have h0 : routeFunc dn (fns.map (·.1)) = [] := by
      rcases C35_most_commas dn (fns.map (·.1)) with h' | ⟨e, hs, before, rest, hf, -⟩
      · exact h'.1
      · have hm : routeFunc dn (fns.map (·.1)) ∈ before ++ routeFunc dn (fns.map (·.1)) :: rest := by simp
        rw [← hf] at hm
        exact absurd hs (h _ hm)
    unfold pick fnAt
    rw [h0, Option.map_eq_none_iff, List.find?_eq_none]
    intro p hp
    have := h p.1 (List.mem_map_of_mem hp)
    simp only [decide_eq_true_eq]
    intro e
    exact this (e ▸ List.nil_suffix)
  obtain ⟨nm, hnm⟩ := Option.ne_none_iff_exists'.1 hp
  refine ⟨fun hb h => ?_, fun hb hs h attrs => ?_, fun hb h cs hk => ?_, fun hb h rdn del hq => ?_, fun w hs => ?_⟩
  · have e := write_packet V srv (.delete dn) (.inr (by nofun)) o id bound st
    simp only [Write.packet, Write.respTag] at e
    rw [e, handleDelete, if_neg hb, parseDelete_wire V.C dn hnm]
    simp only [callFn, none_ _ h]; rfl
  · have e := write_packet V srv (.add dn attrs) (.inl hs) o id bound st
    simp only [Write.packet, Write.respTag] at e
    rw [e, handleAdd, if_neg hb, parseAdd_wire V.C dn attrs hnm]
    simp only [callFn, none_ _ h]; rfl
  · have e := write_packet V srv (.modify dn cs) (.inr (by nofun)) o id bound st
    simp only [Write.packet, Write.respTag] at e
    rw [e, handleModify, if_neg hb, parseModify_wire V.C dn cs hnm hk]
    simp only [callFn, none_ _ h]; rfl
  · obtain ⟨rm, hrm⟩ := Option.ne_none_iff_exists'.1 hq
    have e := write_packet V srv (.rename dn rdn del) (.inr (by nofun)) o id bound st
    simp only [Write.packet, Write.respTag] at e
    rw [e, handleModifyDN, if_neg hb, parseModifyDN_wire V.C dn rdn del hnm hrm]
    simp only [callFn, none_ _ h]; rfl
  · rw [write_packet V srv w hs o id [] st]
    cases w <;> rfl

/-- C97: a bind goes to the handler responsible for the name, with name and password as sent. The connection has the name, normalised, as
identity exactly if the handler answers success and the name parses; otherwise it keeps the one it had or is closed. -/
theorem C97_bind (hn : OnePerSuffix srv.bindFns) {dn pw : Str} (hr : Responsible (srv.bindFns.map (·.1)) s dn)
    {f : Str → Str → Act σ (Nat × Bool)} (hf : (s, f) ∈ srv.bindFns) (st : σ) :
    handlePacket V srv o (wMsg id (wBind dn pw)) bound st =
      match f dn pw st with
      | (.ok (code, false), st') =>
        if code = 0 then
          match parseNormalize V.C dn with
          | some b => ⟨[.result id 1 0], .go b, st'⟩
          | none => ⟨[], .closed, srv.close [] st'⟩
        else ⟨[.result id 1 code], .go bound, st'⟩
      | (.hang, st') => ⟨[], .hang, st'⟩
      | (_, st') => ⟨[.result id 1 1], .go bound, st'⟩ := by
  have e : handlePacket V srv o (wMsg id (wBind dn pw)) bound st = stepBind V srv id bound (wBind dn pw) st := by
    simp [handlePacket, wMsg, wSeq, Packet.kids, berInt, Packet.int?, Packet.val, wBind, wReq, Packet.cls, decodeControls, Packet.tag,
      appAddRequest, appBindRequest]
  have hb : bindBody srv (wBind dn pw) st = match f dn pw st with
      | (.ok (code, false), st') => (.ok code, st')
      | (.ok (_, true), st') => (.ok 1, st')
      | (.err _, st') => (.ok 1, st')
      | (.panic, st') => (.panic, st')
      | (.hang, st') => (.hang, st') := by
    have h1 : (wBind dn pw).kids = [berInt 3, octet dn, ctxStr 0 pw] := rfl
    have h2 : (berInt 3).int? = some 3 := rfl
    have h3 : (octet dn).str? = some dn := rfl
    unfold bindBody
    simp only [h1, List.getElem?_cons_zero, h2, List.getElem?_cons_succ, h3, responsible_pick hn hr hf]
    simp only [ne_eq, not_true_eq_false, if_false, ctxStr, Packet.tag, authSimple, if_true, List.length_cons, List.length_nil, Packet.data]
    rcases f dn pw st with ⟨r, st'⟩
    rcases r with ⟨c, b⟩ | e | _ | _
    · cases b <;> rfl
    · rfl
    · rfl
    · rfl
  rw [e, stepBind, handleBind, hb]
  rcases f dn pw st with ⟨r, st'⟩
  rcases r with ⟨c, b⟩ | e | _ | _
  · cases b
    · simp only
      by_cases hc : c = 0
      · subst hc
        have h1 : (wBind dn pw).kids[1]? = some (octet dn) := rfl
        have h3 : (octet dn).str? = some dn := rfl
        simp only [rcSuccess, if_true, h1, h3]
        cases parseNormalize V.C dn <;> rfl
      · rw [if_neg hc, if_neg (show ¬ c = rcSuccess from hc)]; rfl
    · rfl
  · rfl
  · rfl
  · rfl

/-- C97: a search goes to the handler responsible for its base. If the server does not enforce LDAP semantics the client is sent what the
handler returns, as it is: nothing is selected or left out. -/
theorem C97_search (hn : OnePerSuffix srv.searchFns) (he : srv.enforce = false) {base : Str} {scope limit : Nat} {filter : Packet} {attrs : List Str}
    {text : Str} (hd : decompile filter = some text) (hr : Responsible (srv.searchFns.map (·.1)) s base)
    {f : Str → SearchReq → Act σ SearchRes} (hf : (s, f) ∈ srv.searchFns) (st : σ) :
    handlePacket V srv o (wMsg id (wSearch base scope limit filter attrs)) bound st =
      match f bound ⟨base, scope, 0, limit, 0, false, text, attrs, []⟩ st with
      | (.ok r, st') =>
        if r.err then ⟨[.searchDone id r.code (some r.controls)], .closed, srv.close bound st'⟩
        else ⟨r.entries.map (.entry id) ++ [.searchDone id 0 (some r.controls)], .go bound, st'⟩
      | (.hang, st') => ⟨[], .hang, st'⟩
      | (_, st') => ⟨[], .crash, st'⟩ := by
  have e : handlePacket V srv o (wMsg id (wSearch base scope limit filter attrs)) bound st =
      stepSearch V srv id bound (wSearch base scope limit filter attrs) [] st := by
    simp [handlePacket, wMsg, wSeq, Packet.kids, berInt, Packet.int?, Packet.val, wSearch, wReq, Packet.cls, decodeControls, Packet.tag,
      appAddRequest, appBindRequest, appCompareRequest, appDelRequest, appExtendedRequest, appModifyDNRequest, appModifyRequest, appSearchRequest]
  have hp : parseSearchRequest (wSearch base scope limit filter attrs) [] = some ⟨base, scope, 0, limit, 0, false, text, attrs, []⟩ := by
    have ha : ∀ l : List Str, parseAttrNames (l.map octet) = some l := by
      intro l
      induction l with
      | nil => rfl
      | cons a l ih =>
        have : (octet a).str? = some a := rfl
        simp [parseAttrNames, this, ih]
    have hk : (wSearch base scope limit filter attrs).kids =
        [octet base, wEnum scope, wEnum 0, berInt limit, berInt 0, wBool false, filter, wSeq (attrs.map octet)] := rfl
    unfold parseSearchRequest
    simp only [hk]
    have h1 : (octet base).str? = some base := rfl
    have h2 : (wEnum scope).int? = some (scope : Int) := rfl
    have h3 : (wEnum 0).int? = some 0 := rfl
    have h4 : (berInt limit).int? = some (limit : Int) := rfl
    have h5 : (berInt 0).int? = some 0 := rfl
    have h6 : ¬ (wBool false).val = .nil := by simp [wBool, Packet.val]
    have h7 : (wBool false).bool? = some false := rfl
    have h8 : (wSeq (attrs.map octet)).kids = attrs.map octet := rfl
    simp [h1, h2, h3, h4, h5, h6, h7, h8, hd, ha]
  rw [e, stepSearch, handleSearch, hp]
  simp only [he, Bool.false_eq_true, if_false, responsible_pick hn hr hf]
  rcases f bound ⟨base, scope, 0, limit, 0, false, text, attrs, []⟩ st with ⟨r, st'⟩
  cases r with
  | ok r =>
    cases h : r.err
    · simp [h, rcSuccess]
    · simp [h]
  | err e => rfl
  | panic => rfl
  | hang => rfl

end

/-! ## Registration -/

theorem mem_register {α : Type} {fns : List (Str × α)} {s : Str} {f : α} {p : Str × α} :
    p ∈ register s f fns ↔ p = (s, f) ∨ p ∈ fns ∧ p.1 ≠ s := by
  unfold register
  by_cases h : (fns.any fun p => p.1 = s) = true
  · rw [if_pos h]
    simp only [List.any_eq_true, decide_eq_true_eq] at h
    simp only [List.mem_map]
    constructor
    · rintro ⟨q, hq, rfl⟩
      by_cases e : q.1 = s
      · rw [if_pos e]; exact .inl rfl
      · rw [if_neg e]; exact .inr ⟨hq, e⟩
    · rintro (rfl | ⟨hp, e⟩)
      · obtain ⟨q, hq, e⟩ := h
        exact ⟨q, hq, by rw [if_pos e]⟩
      · exact ⟨p, hp, by rw [if_neg e]⟩
  · rw [if_neg h]
    simp only [List.any_eq_true, decide_eq_true_eq] at h
    simp only [List.mem_append, List.mem_singleton]
    constructor
    · rintro (hp | rfl)
      · exact .inr ⟨hp, fun e => h ⟨p, hp, e⟩⟩
      · exact .inl rfl
    · rintro (rfl | ⟨hp, -⟩)
      · exact .inr rfl
      · exact .inl hp

/-- C97: registering keeps one handler per suffix. -/
theorem C97_one_per_suffix {α : Type} {fns : List (Str × α)} (hn : OnePerSuffix fns) (s : Str) (f : α) : OnePerSuffix (register s f fns) := by
  unfold register
  by_cases h : (fns.any fun p => p.1 = s) = true
  · rw [if_pos h]
    have : (fns.map fun p => if p.1 = s then (s, f) else p).map (·.1) = fns.map (·.1) := by
      rw [List.map_map]
      apply List.map_congr_left
      intro p _
      simp only [Function.comp_apply]
      split
      · rename_i e; exact e.symm
      · rfl
    unfold OnePerSuffix
    rw [this]
    exact hn
  · rw [if_neg h]
    simp only [List.any_eq_true, decide_eq_true_eq] at h
    unfold OnePerSuffix
    rw [List.map_append, List.nodup_append]
    refine ⟨hn, by simp, ?_⟩
    intro a ha b hb
    obtain ⟨p, hp, rfl⟩ := List.mem_map.1 ha
    simp only [List.map_cons, List.map_nil, List.mem_singleton] at hb
    subst hb
    exact fun e => h ⟨p, hp, e⟩

theorem pick_filter {α : Type} (l : List (Str × α)) (name : Str) : pick l name = pick (l.filter fun p => hasSuffix name p.1) name := by
  have route : ∀ (l : List (Str × α)) (best : Str), routeLoop name best (l.map (·.1)) =
      routeLoop name best ((l.filter fun p => hasSuffix name p.1).map (·.1)) := by
    intro l
    induction l with
    | nil => intro best; rfl
    | cons a l ih =>
      intro best
      by_cases h : hasSuffix name a.1 = true
      · rw [List.filter_cons_of_pos (by exact h), List.map_cons, List.map_cons, routeLoop, routeLoop, if_pos h, if_pos h]
        exact ih _
      · rw [List.filter_cons_of_neg (by exact h), List.map_cons, routeLoop, if_neg h]
        exact ih _
  unfold pick fnAt routeFunc
  rw [← route]
  generalize hr : routeLoop name [] (l.map (·.1)) = r
  have hs : hasSuffix name r = true := by
    rw [hasSuffix_iff]
    rcases C35_most_commas name (l.map (·.1)) with h | h
    · rw [← hr, show routeLoop name [] (l.map (·.1)) = _ from h.1]; exact List.nil_suffix
    · rw [← hr]; exact h.2.1
  congr 1
  rw [List.find?_filter]
  congr 1
  funext p
  by_cases e : p.1 = r
  · rw [e, hs]; simp
  · simp [e]

/-- C97: registering a handler under a suffix the name does not end in changes nothing for the name: the handlers that it may be given to, over
all orders in which the map may be gone through, are those it was given to before. -/
theorem C97_register_elsewhere {α : Type} (fns : List (Str × α)) (s : Str) (f : α) (name : Str) (hs : ¬ s <:+ name) (g : Option α) :
    (∃ order, order.Perm (register s f fns) ∧ pick order name = g) ↔ ∃ order, order.Perm fns ∧ pick order name = g := by
  have hs' : hasSuffix name s = false := by
    cases h : hasSuffix name s
    · rfl
    · exact absurd (hasSuffix_iff.1 h) hs
  have hf : (register s f fns).filter (fun p => hasSuffix name p.1) = fns.filter fun p => hasSuffix name p.1 := by
    unfold register
    split
    · induction fns with
      | nil => rfl
      | cons a fns ih =>
        rw [List.map_cons, List.filter_cons, List.filter_cons]
        have ih : List.filter (fun p => hasSuffix name p.1) (fns.map fun p => if p.1 = s then (s, f) else p) = fns.filter fun p => hasSuffix name p.1 := by
          clear ih
          rename_i h
          clear h
          induction fns with
          | nil => rfl
          | cons b fns ih =>
            rw [List.map_cons, List.filter_cons, List.filter_cons, ih]
            by_cases e : b.1 = s
            · rw [if_pos e, e]; simp [hs']
            · rw [if_neg e]
        rw [ih]
        by_cases e : a.1 = s
        · rw [if_pos e, e]; simp [hs']
        · rw [if_neg e]
    · rw [List.filter_append]
      simp [hs']
  have key : ∀ l l' : List (Str × α), l.filter (fun p => hasSuffix name p.1) = l'.filter (fun p => hasSuffix name p.1) →
      (∃ order, order.Perm l ∧ pick order name = g) → ∃ order, order.Perm l' ∧ pick order name = g := by
    rintro l l' he ⟨order, hp, hg⟩
    refine ⟨order.filter (fun p => hasSuffix name p.1) ++ l'.filter (fun p => !hasSuffix name p.1), ?_, ?_⟩
    · have h1 : (order.filter fun p => hasSuffix name p.1).Perm (l'.filter fun p => hasSuffix name p.1) := he ▸ hp.filter _
      exact (h1.append_right _).trans (List.filter_append_perm _ _)
    · rw [pick_filter, List.filter_append, List.filter_filter, List.filter_filter]
      have : (l'.filter fun p => hasSuffix name p.1 && !hasSuffix name p.1) = [] := by
        rw [List.filter_eq_nil_iff]; intro p _; cases hasSuffix name p.1 <;> simp
      rw [this, List.append_nil]
      simp only [Bool.and_self]
      rw [← pick_filter]
      exact hg
  exact ⟨key _ _ hf, key _ _ hf.symm⟩

/-- C97: a handler registered under a suffix the name ends in is given the name, in whatever order the map is gone through, if all other
registered suffixes that the name ends in have fewer commas. A handler that was registered under the same suffix is replaced. -/
theorem C97_register_here {α : Type} {fns : List (Str × α)} (hn : OnePerSuffix fns) (s : Str) (f : α) (name : Str) (hs : s <:+ name)
    (hl : ∀ p ∈ fns, p.1 ≠ s → p.1 <:+ name → p.1 = [] ∨ p.1.count 44 < s.count 44) {order : List (Str × α)}
    (ho : order.Perm (register s f fns)) : pick order name = some f := by
  have h1 : OnePerSuffix order := (ho.map Prod.fst).nodup_iff.2 (C97_one_per_suffix hn s f)
  have hf : (s, f) ∈ order := ho.mem_iff.2 (mem_register.2 (.inl rfl))
  refine responsible_pick h1 ⟨List.mem_map_of_mem (f := (·.1)) hf, hs, ?_⟩ hf
  intro t ht hts htn
  obtain ⟨p, hp, rfl⟩ := List.mem_map.1 ht
  rcases mem_register.1 (ho.mem_iff.1 hp) with rfl | ⟨hp, -⟩
  · exact absurd rfl hts
  · exact hl p hp hts htn

/-! ## A new server -/

section
variable {σ : Type} {V : Env}

theorem pick_default {α : Type} (f : α) (dn : Str) : pick (register [] f []) dn = some f := by
  simp [pick, register, fnAt, routeFunc, routeLoop, splitLen, hasSuffix]

theorem fresh_packet (o : Oracle) (p : Packet) (st : σ) :
    let out := handlePacket V freshServer o p [] st
    out.st = st ∧ (∀ b, out.next = .go b → b = []) ∧ ∀ r ∈ out.resps, r.Empty := by
  intro out
  have h := handlePacket_cases V (freshServer (σ := σ)) o p [] st
  have ho : handlePacket V freshServer o p [] st = out := rfl
  rw [ho] at h
  generalize out = out at h
  clear ho
  have hbody : ∀ req, ∃ r, bindBody (freshServer (σ := σ)) req st = (r, st) ∧ r ≠ .hang ∧ (∀ e, r ≠ .err e) ∧ ∀ c, r = .ok c → c ≠ 0 := by
    intro req
    have hf : ∀ dn, pick (freshServer (σ := σ)).bindFns dn = some defaultBind := fun dn => pick_default _ _
    unfold bindBody
    simp only [hf, defaultBind]
    repeat' split
    all_goals first
      | exact ⟨_, rfl, by simp, by simp, by intro c h; cases h; decide⟩
      | exact ⟨_, rfl, by simp, by simp, by intro c h; cases h⟩
  have hbind : ∀ req, ∃ c, handleBind (freshServer (σ := σ)) req st = (.ok c, st) ∧ c ≠ 0 := by
    intro req
    obtain ⟨r, h, h1, h2, h3⟩ := hbody req
    unfold handleBind
    rw [h]
    cases r with
    | ok c => exact ⟨c, rfl, h3 c rfl⟩
    | err e => exact absurd rfl (h2 e)
    | panic => exact ⟨1, rfl, by decide⟩
    | hang => exact absurd rfl h1
  cases h with
  | closed => exact ⟨rfl, by simp, by simp⟩
  | crash => exact ⟨rfl, by simp, by simp⟩
  | hang => exact ⟨rfl, by simp, by simp⟩
  | addHang => exact ⟨rfl, by simp, by simp⟩
  | add id req => exact ⟨rfl, by simp [handleAdd, reply], by simp [handleAdd, reply, Resp.Empty, rcInsufficientAccessRights]⟩
  | delete id req => exact ⟨rfl, by simp [handleDelete, reply], by simp [handleDelete, reply, Resp.Empty, rcInsufficientAccessRights]⟩
  | modifyDN id req => exact ⟨rfl, by simp [handleModifyDN, reply], by simp [handleModifyDN, reply, Resp.Empty, rcInsufficientAccessRights]⟩
  | modify id req => exact ⟨rfl, by simp [handleModify, reply], by simp [handleModify, reply, Resp.Empty, rcInsufficientAccessRights]⟩
  | compare id req => exact ⟨rfl, by simp, by simp [Resp.Empty, rcOperationsError]⟩
  | bind id req =>
    obtain ⟨c, h, hc⟩ := hbind req
    unfold stepBind
    rw [h]
    dsimp only
    rw [if_neg (show ¬ c = rcSuccess from hc)]
    exact ⟨rfl, by simp, by simp [Resp.Empty, hc]⟩
  | extended id req =>
    unfold stepExtended handleExtended
    cases hp : parseExtendedRequest req with
    | err e => exact ⟨rfl, by simp, by simp [Resp.Empty, rcOperationsError]⟩
    | panic => exact ⟨rfl, by simp, by simp⟩
    | hang => exact ⟨rfl, by simp, by simp⟩
    | ok x =>
      obtain ⟨oid, body⟩ := x
      dsimp only
      by_cases ho : oid = pwmodOID
      · rw [if_pos ho]
        simp only [handlePwModify, if_true]
        exact ⟨trivial, by simp, by simp [Resp.Empty, rcUnwillingToPerform]⟩
      · rw [if_neg ho]
        exact ⟨rfl, by simp, by simp [Resp.Empty, rcOperationsError]⟩
  | search id req controls =>
    unfold stepSearch handleSearch
    cases hp : parseSearchRequest req controls with
    | none => exact ⟨rfl, by simp, by simp [Resp.Empty, rcOperationsError]⟩
    | some r =>
      have he : (freshServer (σ := σ)).enforce = false := rfl
      have hf : pick (freshServer (σ := σ)).searchFns r.baseDN = some defaultSearch := pick_default _ _
      simp only [he, Bool.false_eq_true, if_false, hf, defaultSearch]
      exact ⟨trivial, by simp, by simp [Resp.Empty, rcSuccess]⟩

/-- C97: a server without handlers, whatever it is sent on a connection: nobody is ever bound, no entry and no password is sent, nothing but
a search is answered with success, and the state of the program is as it was. -/
theorem C97_fresh (ps : List (Packet × Oracle)) (st : σ) :
    let out := serveFrom V freshServer [] st ps
    out.st = st ∧ (∀ b, out.next = .go b → b = []) ∧ ∀ x ∈ out.log, ∀ r ∈ x.2, r.Empty := by
  induction ps with
  | nil => exact ⟨rfl, by simp [serveFrom], by simp [serveFrom]⟩
  | cons x ps ih =>
    obtain ⟨p, o⟩ := x
    obtain ⟨h1, h2, h3⟩ := fresh_packet (V := V) o p st
    intro out
    have ho : serveFrom V freshServer [] st ((p, o) :: ps) = out := rfl
    clear_value out
    unfold serveFrom at ho
    dsimp only at ho
    cases hn : (handlePacket V freshServer o p [] st).next with
    | go b =>
      have hb := h2 b hn
      subst hb
      rw [hn] at ho
      dsimp only at ho
      rw [h1] at ho
      subst ho
      obtain ⟨i1, i2, i3⟩ := ih
      refine ⟨i1, i2, fun x hx => ?_⟩
      rcases List.mem_cons.1 hx with rfl | hx
      · exact h3
      · exact i3 x hx
    | closed =>
      rw [hn] at ho; subst ho
      exact ⟨h1, by simp, by simpa using h3⟩
    | crash =>
      rw [hn] at ho; subst ho
      exact ⟨h1, by simp, by simpa using h3⟩
    | hang =>
      rw [hn] at ho; subst ho
      exact ⟨h1, by simp, by simpa using h3⟩

/-- C97: the answers of a server without handlers: a bind is refused (invalidCredentials), a search finds nothing. -/
theorem C97_fresh_answers (o : Oracle) (id : Int) (bound : Str) (st : σ) :
    (∀ dn pw, handlePacket V freshServer o (wMsg id (wBind dn pw)) bound st = ⟨[.result id 1 49], .go bound, st⟩) ∧
    (∀ base scope limit filter attrs, decompile filter ≠ none →
      handlePacket V freshServer o (wMsg id (wSearch base scope limit filter attrs)) bound st = ⟨[.searchDone id 0 (some [])], .go bound, st⟩) := by
  constructor
  · intro dn pw
    rw [C97_bind (s := []) (f := defaultBind) (by simp [OnePerSuffix, freshServer, register]) ⟨by simp [freshServer, register], List.nil_suffix, by simp [freshServer, register]⟩ (by simp [freshServer, register])]
    simp [defaultBind, rcInvalidCredentials]
  · intro base scope limit filter attrs hd
    obtain ⟨text, ht⟩ := Option.ne_none_iff_exists'.1 hd
    rw [C97_search (s := []) (f := defaultSearch) (by simp [OnePerSuffix, freshServer, register]) rfl ht ⟨by simp [freshServer, register], List.nil_suffix, by simp [freshServer, register]⟩ (by simp [freshServer, register])]
    simp [defaultSearch]

end

/-! ## Concrete cases -/

/-- a server with two delete handlers and one registered a second time: the second suffix gets what is below it, the first the rest, and
a name outside both is refused -/
example :
    let count : Nat → Str → Str → Act (List Nat) (Nat × Bool) := fun i _ _ st => (.ok (0, false), st ++ [i])
    let srv : Srv (List Nat) := ((freshServer.deleteFunc b!"dc=lg" (count 1)).deleteFunc b!"ou=p,dc=lg" (count 2)).deleteFunc b!"dc=lg" (count 3)
    let V : Env := ⟨asciiCase, ⟨fun _ _ => .err .other, fun _ _ => none, fun _ _ => none, fun _ => [], fun _ => none⟩, fun _ => .panic, fun _ => none⟩
    OnePerSuffix srv.deleteFns ∧
    (handlePacket V srv ⟨fun _ => none, []⟩ (wMsg 1 (wDelete b!"uid=a,ou=p,dc=lg")) b!"x" []).st = [2] ∧
    (handlePacket V srv ⟨fun _ => none, []⟩ (wMsg 1 (wDelete b!"uid=a,dc=lg")) b!"x" []).st = [3] ∧
    (handlePacket V srv ⟨fun _ => none, []⟩ (wMsg 1 (wDelete b!"uid=a,dc=org")) b!"x" []).resps = [.result 1 11 53] := by
  decide +kernel

/-- the suffix that is responsible in this case -/
example : Responsible [b!"dc=lg", b!"ou=p,dc=lg"] b!"ou=p,dc=lg" b!"uid=a,ou=p,dc=lg" := by
  refine ⟨by decide, ⟨b!"uid=a,", by decide⟩, fun t ht hne _ => ?_⟩
  rcases List.mem_cons.1 ht with rfl | ht
  · exact .inr (by decide)
  · simp only [List.mem_singleton] at ht; exact absurd ht hne

end Idm
