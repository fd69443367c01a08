import Verif.Lemmas.CreatorAmend
import Verif.Spec.Removing

/-!
# Archives whose entries are changed: what they have
-/

namespace Pyzim
open Zim (Row Stored MimesIn catalogue marked Redirect)

section
variable {D K : Type} {X : Codecs D} {C : Compressors K} {a : Archive} {reserve : Option Nat} {rows : List Row} {cs : List Stored}
  {extra : Nat → Prop} {es : List Entry} {m0 : Catalogue} {R B rs : List Redirect} {L : Bytes} {G : List (List Sourced)}
  {ML : List Bytes} {S : Setup D K} {c c' : Creator D} {recent : List Sourced}
  {done : List (List Sourced)} {Gb : List (List (List Sourced))} {u : String} {g : Item → Item}

/-- a change that keeps the url -/
structure SameUrl (g : Item → Item) : Prop where
  ns : ∀ it, (g it).ns = it.ns
  url : ∀ it, (g it).url = it.url
  article : ∀ it, (g it).isArticle = it.isArticle

theorem SameUrl.fullUrl (h : SameUrl g) (it : Item) : (g it).fullUrl = it.fullUrl := by
  unfold Item.fullUrl; rw [h.ns, h.url]

theorem sameUrl_retyped (m : String) : SameUrl (Item.retyped m) := ⟨fun _ => rfl, fun _ => rfl, fun _ => rfl⟩
theorem sameUrl_retitled (t : String) : SameUrl (Item.retitled t) := ⟨fun _ => rfl, fun _ => rfl, fun _ => rfl⟩

theorem amended_url (hk : SameUrl g) (u : String) (p : Sourced) : (amended u g p).1.fullUrl = p.1.fullUrl := by
  unfold amended; split
  · exact hk.fullUrl _
  · rfl

theorem amended_content (u : String) (g : Item → Item) (p : Sourced) : (amended u g p).2 = p.2 := by
  unfold amended; split <;> rfl

theorem amendIn_new {lists : List (List Sourced)} {l : List Sourced}
    (h : l ∈ amendIn u g lists) : l ∈ lists ∨ ∃ l' ∈ lists, l = l'.map (amended u g) := by
  rcases replaceLast_mem h with h | ⟨x, hx, -, rfl⟩
  · exact .inl h
  · exact .inr ⟨x, hx, rfl⟩

/-- the groups of items, one list of groups for each list of items -/
theorem amendIn_groups (hk : SameUrl g) (hu : u ≠ "")
    (h : List.Forall₂ (fun G l => (present gh G).Perm l) Gb done) (hn : ∀ l ∈ done, (l.map fun p => p.1.fullUrl).Nodup) :
    ∃ Gb', List.Forall₂ (fun G l => (present gh G).Perm l) Gb' (amendIn u g done) ∧ Gb'.flatten = amendGroups u g Gb.flatten := by
  refine ⟨replaceLast (fun G => G.any fun l => l.any (urlIs u)) (amendGroups u g) Gb, ?_, replaceLast_flatten⟩
  have hmem : ∀ {G : List (List Sourced)} {p : Sourced}, p.1.fullUrl = u → (p ∈ present gh G ↔ p ∈ G.flatten) := by
    intro G p hp
    cases gh with
    | false => exact Iff.rfl
    | true =>
      unfold present
      simp only
      rw [List.mem_filter]
      exact ⟨fun h => h.1, fun h => ⟨h, decide_eq_true (by rw [show p.1.ns ++ p.1.url = u from hp]; exact hu)⟩⟩
  refine replaceLast_forall₂ h ?_ ?_
  · intro G l hp
    rw [Bool.eq_iff_iff]
    constructor
    · intro hG
      obtain ⟨g, hg, hany⟩ := List.any_eq_true.1 hG
      obtain ⟨p, hp1, hp2⟩ := List.any_eq_true.1 hany
      exact List.any_eq_true.2 ⟨p, hp.subset ((hmem (of_decide_eq_true hp2)).2 (List.mem_flatten.2 ⟨g, hg, hp1⟩)), hp2⟩
    · intro hl
      obtain ⟨p, hp1, hp2⟩ := List.any_eq_true.1 hl
      obtain ⟨g, hg, hpg⟩ := List.mem_flatten.1 ((hmem (of_decide_eq_true hp2)).1 (hp.mem_iff.2 hp1))
      exact List.any_eq_true.2 ⟨g, hg, List.any_eq_true.2 ⟨p, hpg, hp2⟩⟩
  · intro G l _ hl hp
    have e : present gh (amendGroups u g G) = replaceLast (urlIs u) (fun p => (g p.1, p.2)) (present gh G) := by
      unfold amendGroups
      cases gh with
      | false => exact replaceLast_flatten
      | true =>
        unfold present
        simp only
        rw [replaceLast_flatten]
        refine replaceLast_filter (f := fun p : Sourced => (g p.1, p.2)) (q := fun p : Sourced => decide (p.1.ns ++ p.1.url ≠ "")) (fun p hp => decide_eq_true ?_)
          (fun p => by simp only [hk.ns, hk.url]) _
        rw [show p.1.ns ++ p.1.url = u from of_decide_eq_true hp]
        exact hu
    show (present gh (amendGroups u g G)).Perm _
    rw [e, replaceLast_unique (key := fun p : Sourced => p.1.fullUrl) ((hp.map _).nodup_iff.2 (hn l hl))]
    exact hp.map _

theorem amendGroups_append {G0 : List (List Sourced)} (h : ∀ p ∈ G.flatten, p.1.fullUrl ≠ u) :
    amendGroups u g (G0 ++ G) = amendGroups u g G0 ++ G := by
  have hG : G.any (fun l => l.any (urlIs u)) = false := any_urlIs h
  unfold amendGroups
  rw [replaceLast_append, if_neg (by rw [hG]; simp)]

/-- the items after one was changed -/
theorem current_amendIn (hk : SameUrl g) (u : String) (ls : List (List Sourced)) :
    current (amendIn u g ls) = (current ls).map (amended u g) := by
  induction ls using snoc_induction with
  | h0 => rfl
  | h1 ls l ih =>
    unfold amendIn at ih ⊢
    rw [replaceLast_append]
    cases hany : l.any fun p => decide (p.1.fullUrl = u) with
    | true =>
      rw [if_pos (by simpa using hany)]
      have e : replaceLast (fun l : List Sourced => l.any fun p => decide (p.1.fullUrl = u)) (fun l => l.map (amended u g)) [l] =
          [l.map (amended u g)] := by
        unfold replaceLast
        rw [if_neg (by simp), if_pos hany]
      rw [e, current_snoc, current_snoc, List.map_append]
      congr 1
      have e2 : (fun p : Sourced => (l.map (amended u g)).all fun q => decide (q.1.fullUrl ≠ p.1.fullUrl)) =
          fun p => l.all fun q => decide (q.1.fullUrl ≠ p.1.fullUrl) := by
        funext p
        rw [List.all_map]
        congr 1
        funext q
        simp [amended_url hk]
      rw [e2]
      conv_lhs => rw [← List.map_id (List.filter _ _)]
      refine List.map_congr_left fun p hp => ?_
      obtain ⟨q, hq, hqu⟩ := List.any_eq_true.1 hany
      have := List.all_eq_true.1 (List.mem_filter.1 hp).2 q hq
      unfold amended
      rw [if_neg]
      · rfl
      · intro hpu
        rw [of_decide_eq_true hqu, hpu] at this
        simp at this
    | false =>
      rw [if_neg (by simpa using hany), current_snoc, current_snoc, ih, List.map_append, List.filter_map]
      have e : l.map (amended u g) = l := by
        conv_rhs => rw [← List.map_id l]
        refine List.map_congr_left fun p hp => ?_
        unfold amended
        rw [if_neg]
        · rfl
        · intro hpu
          exact List.any_eq_false.1 hany p hp (decide_eq_true hpu)
      rw [e]
      congr 3
      funext p
      simp [amended_url hk]

theorem amendIn_append (h : ∀ p ∈ recent, p.1.fullUrl ≠ u) : amendIn u g done ++ [recent] = amendIn u g (done ++ [recent]) := by
  unfold amendIn
  rw [replaceLast_append, if_neg]
  rw [Bool.not_eq_true, List.any_eq_false]
  intro l hl
  rw [List.mem_singleton] at hl
  rw [hl, Bool.not_eq_true, List.any_eq_false]
  intro p hp
  simpa using h p hp

/-- listing a mimetype leaves no fewer unsaved changes -/
theorem dirty_mimes {m : MimeTypeList} (hm : m = a.zim.mimetypes ∨ ∃ mt r, a.zim.mimetypes.getIndex mt true = (r, m))
    (hd : ({ a with zim := { a.zim with mimetypes := m } } : Archive).isDirty = false) : a.isDirty = false := by
  rcases hm with rfl | ⟨mt, r, hg⟩
  · exact hd
  rcases Zim.getIndex_changes hg with rfl | ⟨h1, -⟩
  · exact hd
  · unfold Archive.isDirty at hd
    simp [h1] at hd

/-- changing an item that was flushed -/
theorem Has.amend (h : Has true none S ML reserve Gb.flatten recent rs c)
    (h1 : List.Forall₂ (fun G l => (present true G).Perm l) Gb done) (hn : ∀ l ∈ done, (l.map fun p => p.1.fullUrl).Nodup)
    (hC : ∀ l ∈ done, ∀ p ∈ l, p.1.isArticle = true → p.1.ns = "C") (ham : Amendable u recent rs) (hk : SameUrl g)
    {m : MimeTypeList} (hm : m = c.arch.zim.mimetypes ∨
      ∃ mt r, (mt ≠ [] ∧ (0 : UInt8) ∉ mt ∧ mt ∈ ML) ∧ c.arch.zim.mimetypes.getIndex mt true = (r, m))
    {ρ : Entry → Entry} (hρ : Amends ρ) (hE : ∀ it c b e, EntryFor m it c b e → EntryFor m (g it) c b (ρ e))
    {e0 : Entry} (he : c.arch.zim.entryByFullUrl u = .ok e0) (hp : e0.Clean → (∃ i j, e0.kind = .content i j) → (ρ e0).Proper)
    (hl : (∀ r ∈ rs, r.2.1 ≠ u) ∨ ((ρ e0).getDiskSize = e0.getDiskSize ∧ ∀ e, (ρ e).title = e.title)) {d : Nat} {Z' : Zim}
    (hok : ((ρ e0).view = e0.view ∧ Z' = { c.arch.zim with mimetypes := m }) ∨
      ∃ e', Zim.writeEntry d (ρ e0) true true { c.arch.zim with mimetypes := m } = (.ok e', Z')) :
    ∃ Gb', List.Forall₂ (fun G l => (present true G).Perm l) Gb' (amendIn u g done) ∧
      Has true none S ML reserve Gb'.flatten recent rs { c with arch := { c.arch with zim := Z' } } := by
  obtain ⟨G, P1, P2, ⟨rows, cs, extra, es, L, m0, R, B, hc, hB⟩, w1, w2, w3, w4, hperm, hcl⟩ := h
  have hGr : ∀ p ∈ G.flatten, p ∈ recent := fun p hp => hperm.subset (List.mem_append_right _ hp)
  have hGu : ∀ p ∈ G.flatten, p.1.fullUrl ≠ u := fun p hp => ham.flushed p (hGr p hp)
  have hRs : ∀ x ∈ R, x ∈ rs := fun x hx => hB.subset (List.mem_append_left _ hx)
  have hm0 : m0 u = none := by
    cases hm : m0 u with
    | none => rfl
    | some v =>
      obtain ⟨x, hx, hxu⟩ := hc.only _ _ hm
      exact absurd hxu (ham.item x (hRs x hx))
  have hl' : (∀ r ∈ R, r.2.1 ≠ u) ∨ ((ρ e0).getDiskSize = e0.getDiskSize ∧ ∀ e, (ρ e).title = e.title) :=
    hl.imp (fun k r hr => k r (hRs r hr)) id
  obtain ⟨⟨r, hr, hru, rfl⟩, -, G1, g1, p, g2, G2, E1, ep, E2, A, Z, P⟩ := hc.place ham.other hm0 he
  have hu0 : u ≠ "" := P.ne
  have hclean := hc.laid.content.rep.store.clean r hr
  have hkind : ∃ i j, r.2.kind = .content i j := by
    have hb := congrArg View.body P.view
    unfold Entry.view at hb
    cases hk : r.2.kind with
    | content i j => exact ⟨i, j, rfl⟩
    | redirect i => rw [hk, P.this.location] at hb; cases hb
  obtain ⟨hc1, hpre⟩ : Core true none S.X S.C ML reserve { c.arch with zim := { c.arch.zim with mimetypes := m } } (Gb.flatten ++ G) rows cs
      extra es L m0 R B ∧ c.arch.zim.mimetypes.mimetypes <+: m.mimetypes := by
    rcases hm with rfl | ⟨mt, r, ⟨n1, n2, n3⟩, hg⟩
    · exact ⟨hc, List.prefix_rfl⟩
    · exact hc.listMime n1 n2 n3 hg
  have he1 : ({ c.arch.zim with mimetypes := m } : Zim).entryByFullUrl u = .ok r.2 := by
    rw [← hru]; exact hc1.laid.content.rep.entryByFullUrl hr
  have hCg : ∀ p ∈ (Gb.flatten ++ G).flatten, p.1.fullUrl = u → p.1.isArticle = true → p.1.ns = "C" := by
    intro p hp hpu hpa
    rw [List.flatten_append] at hp
    rcases List.mem_append.1 hp with hp | hp
    · obtain ⟨gr, hgr, hpg⟩ := List.mem_flatten.1 hp
      obtain ⟨Gx, hGx, hgx⟩ := List.mem_flatten.1 hgr
      obtain ⟨l, hl, hpl⟩ := forall₂_mem_left h1 hGx
      refine hC l hl p (hpl.subset ?_) hpa
      refine List.mem_filter.2 ⟨List.mem_flatten.2 ⟨gr, hgx, hpg⟩, decide_eq_true ?_⟩
      rw [show p.1.ns ++ p.1.url = u from hpu]; exact hu0
    · exact absurd hpu (hGu p hp)
  obtain ⟨Gb', j1, j2⟩ := amendIn_groups (gh := true) hk hu0 h1 hn
  obtain ⟨rows', es', k1, k2, k3⟩ : ∃ rows' es', Core true none S.X S.C ML reserve { c.arch with zim := Z' } (amendGroups u g (Gb.flatten ++ G))
      rows' cs extra es' L m0 R B ∧ Z'.mimetypes = m ∧
      (({ c.arch with zim := Z' } : Archive).isDirty = false → c.arch.isDirty = false) := by
    rcases hok with ⟨hv, rfl⟩ | ⟨e', hw⟩
    · obtain ⟨es', k⟩ := hc1.amendedSame ham.other hm0 hρ hk.ns hk.url hE he1 hv (hl'.imp id And.right)
      exact ⟨rows, es', k, rfl, dirty_mimes (hm.imp id fun ⟨mt, r, _, h⟩ => ⟨mt, r, h⟩)⟩
    · obtain ⟨rows', es', k, k', k''⟩ := hc1.rewrite ham.other hm0 hCg hρ hk.ns hk.url hE he1 (hp hclean hkind) hl' hw
      exact ⟨rows', es', k, k', fun hd => dirty_mimes (hm.imp id fun ⟨mt, r, _, h⟩ => ⟨mt, r, h⟩) (k'' hd)⟩
  rw [amendGroups_append hGu, ← j2] at k1
  refine ⟨Gb', j1, G, P1, P2, ⟨rows', cs, extra, es', L, m0, R, B, k1, hB⟩, ?_, ?_, w3, w4, hperm, ?_⟩
  · obtain ⟨t, mx, W, hw⟩ := w1
    exact ⟨t, mx, W, by simp only [k2]; exact hw.mono hpre⟩
  · obtain ⟨mx, hw⟩ := w2
    exact ⟨mx, by simp only [k2]; exact hw.mono hpre⟩
  · intro hd
    obtain ⟨i1, i2, i3⟩ := hcl (k3 hd)
    refine ⟨i1, i2, fun _ => ?_⟩
    exact (k1.redirects.trans hc.redirects.symm).trans (i3 rfl)

theorem Zim.flushEntry_ok {d : Nat} {e : Entry} {z z' : Zim} (h : Zim.flushEntry d e z = (.ok (), z')) :
    (e.dirty = false ∧ z' = z) ∨ (e.dirty = true ∧ ∃ e', Zim.writeEntry d e true true z = (.ok e', z')) := by
  unfold Zim.flushEntry at h
  split at h
  · cases h
  · split at h
    · rename_i hd
      obtain ⟨e', z1, h1, h2⟩ := PyM.bind_ok_iff.1 h
      injection h2 with _ h2
      exact .inr ⟨hd, e', by rw [h1, h2]⟩
    · rename_i hd
      injection h with _ h
      exact .inl ⟨by simpa using hd, h.symm⟩

theorem Creator.setTitle_ok {v : Option StrArg} (hok : Creator.setTitle S u v c = (.ok (), c')) :
    ∃ e0 e' z', c.arch.zim.entryByFullUrl u = .ok e0 ∧ e0.setTitle v = (.ok (), e') ∧
      Zim.flushEntry S.depth e' c.arch.zim = (.ok (), z') ∧ c' = { c with arch := { c.arch with zim := z' } } := by
  unfold Creator.setTitle Creator.onArch Archive.onZim at hok
  simp only [PyM.of_apply] at hok
  rw [PyM.get_bind] at hok
  cases he : c.arch.zim.entryByFullUrl u with
  | error x => rw [he] at hok; cases hok
  | ok e0 =>
    rw [he, PyM.lift_ok_bind] at hok
    generalize hs : e0.setTitle v = y at hok
    obtain ⟨rr, e'⟩ := y
    cases rr with
    | error x => cases hok
    | ok _ =>
      simp only at hok
      generalize hx : Zim.flushEntry S.depth e' c.arch.zim = x at hok
      obtain ⟨r, z'⟩ := x
      injection hok with h1 h2
      simp only at h1 h2
      exact ⟨e0, e', z', rfl, hs, by rw [hx, h1], h2.symm⟩

theorem Creator.setMimetype_ok {v : StrArg} (hok : Creator.setMimetype S u v c = (.ok (), c')) :
    ∃ e0 b t i m e' z', c.arch.zim.entryByFullUrl u = .ok e0 ∧ v.both = .ok (b, t) ∧ b.length ≠ 0 ∧ (0 : UInt8) ∉ b ∧
      c.arch.zim.mimetypes.getIndex (encode t) true = (.ok (some i), m) ∧ e0.setMimetypeId i = (.ok (), e') ∧
      Zim.flushEntry S.depth e' { c.arch.zim with mimetypes := m } = (.ok (), z') ∧
      c' = { c with arch := { c.arch with zim := z' } } := by
  unfold Creator.setMimetype Creator.onArch Archive.onZim at hok
  simp only [PyM.of_apply] at hok
  rw [PyM.get_bind] at hok
  cases he : c.arch.zim.entryByFullUrl u with
  | error x => rw [he] at hok; cases hok
  | ok e0 =>
    rw [he, PyM.lift_ok_bind] at hok
    generalize hx : (Zim.setMimetype v e0 >>= fun e' => Zim.flushEntry S.depth e') c.arch.zim = x at hok
    obtain ⟨r, z'⟩ := x
    injection hok with h1 h2
    simp only at h1 h2
    subst h1
    obtain ⟨e', z1, k1, k2⟩ := PyM.bind_ok_iff.1 hx
    unfold Zim.setMimetype at k1
    split at k1
    · cases k1
    rename_i b t hb
    split at k1
    · cases k1
    rename_i n1
    split at k1
    · cases k1
    rename_i n2
    split at k1
    · cases k1
    · cases k1
    rename_i i m hg
    split at k1
    · cases k1
    rename_i e1 hs
    injection k1 with k1 k1'
    injection k1 with k1
    subst k1
    subst k1'
    exact ⟨e0, b, t, i, m, e1, z', rfl, hb, n1, n2, hg, hs, k2, h2.symm⟩


/-- an entry with another mimetype -/
abbrev Entry.typed (i : Nat) (e : Entry) : Entry := { e with mimetypeId := i, dirty := true }

/-- an entry with another title -/
abbrev Entry.titled (t : String) (e : Entry) : Entry := { e with titleRaw := some t, dirty := true }

theorem amends_typed (i : Nat) : Amends (Entry.typed i) :=
  ⟨fun _ => rfl, fun _ => rfl, fun _ => rfl, fun _ => rfl, fun _ => rfl, fun e e' h => by
    have h1 : e.ns = e'.ns := congrArg View.ns h
    have h2 : e.url = e'.url := congrArg View.url h
    have h3 : e.title = e'.title := congrArg View.title h
    have h4 := congrArg View.body h
    unfold Entry.view at h4 ⊢
    rw [View.mk.injEq]
    exact ⟨h1, h2, h3, rfl, h4⟩⟩

theorem Entry.titled_title (t : String) (e : Entry) : (Entry.titled t e).title = if t = "" then e.url else t := rfl

theorem amends_titled (t : String) : Amends (Entry.titled t) :=
  ⟨fun _ => rfl, fun _ => rfl, fun _ => rfl, fun _ => rfl, fun _ => rfl, fun e e' h => by
    have h1 : e.ns = e'.ns := congrArg View.ns h
    have h2 : e.url = e'.url := congrArg View.url h
    have h3 : e.mimetypeId = e'.mimetypeId := congrArg View.mimetype h
    have h4 := congrArg View.body h
    unfold Entry.view at h4 ⊢
    rw [View.mk.injEq]
    refine ⟨h1, h2, ?_, h3, h4⟩
    rw [Entry.titled_title, Entry.titled_title, h2]⟩

/-- an entry that was just read -/
theorem Has.clean_read {G0 : List (List Sourced)} (h : Has gh mp S ML reserve G0 recent rs c) {e0 : Entry}
    (he : c.arch.zim.entryByFullUrl u = .ok e0) : e0.dirty = false := by
  obtain ⟨G, P1, P2, ⟨rows, cs, extra, es, L, m0, R, B, hc, hB⟩, -⟩ := h
  have hrep := hc.laid.content.rep
  by_cases hh : ∃ r ∈ rows, r.2.fullUrl = u
  · obtain ⟨r, hr, hru⟩ := hh
    rw [← hru, hrep.entryByFullUrl hr] at he
    injection he with he
    rw [← he, ← (hrep.store.clean r hr).fresh]
    rfl
  · rw [hrep.entryByFullUrl_missing fun r hr e => hh ⟨r, hr, e⟩] at he
    cases he

/-- changing the title of an item -/
theorem Has.retitle (h : Has true none S ML reserve Gb.flatten recent rs c)
    (h1 : List.Forall₂ (fun G l => (present true G).Perm l) Gb done) (hn : ∀ l ∈ done, (l.map fun p => p.1.fullUrl).Nodup)
    (hC : ∀ l ∈ done, ∀ p ∈ l, p.1.isArticle = true → p.1.ns = "C") (ham : Amendable u recent rs) (hl : ∀ r ∈ rs, r.2.1 ≠ u)
    {v : Option StrArg} {b : Bytes} {t : String} (hb : (v.getD (.str "")).both = .ok (b, t))
    (hok : Creator.setTitle S u v c = (.ok (), c')) :
    ∃ Gb', List.Forall₂ (fun G l => (present true G).Perm l) Gb' (amendIn u (Item.retitled t) done) ∧
      Has true none S ML reserve Gb'.flatten recent rs c' := by
  obtain ⟨e0, e', Z', he, hs, hfl, rfl⟩ := Creator.setTitle_ok hok
  have hE : ∀ it c' b e, EntryFor c.arch.zim.mimetypes it c' b e →
      EntryFor c.arch.zim.mimetypes (Item.retitled t it) c' b (Entry.titled t e) :=
    fun it c b e k => ⟨k.ns, k.url, rfl, k.article, k.mimetype, k.location⟩
  unfold Entry.setTitle at hs
  rw [hb] at hs
  simp only at hs
  split at hs
  · cases hs
  rename_i h0
  split at hs
  · cases hs
  have hp : e0.Clean → (∃ i j, e0.kind = .content i j) → (Entry.titled t e0).Proper := by
    intro hcl _
    refine ⟨hcl.storable.url, ⟨t, rfl, by rw [← Entry.both_inv hb]; exact h0⟩, hcl.kind, fun hf => ?_⟩
    rw [show (Entry.titled t e0).forceIsArticle = e0.forceIsArticle from rfl, ← hcl.fresh] at hf
    cases hf
  refine h.amend h1 hn hC ham (sameUrl_retitled t) (m := c.arch.zim.mimetypes) (.inl rfl) (amends_titled t) hE he hp (.inl hl)
    (d := S.depth) ?_
  split at hs
  · injection hs with _ hs
    subst hs
    rcases Zim.flushEntry_ok hfl with ⟨k, -⟩ | ⟨-, k⟩
    · cases k
    · exact .inr k
  · rename_i ht
    rw [ne_eq, not_not] at ht
    injection hs with _ hs
    subst hs
    rcases Zim.flushEntry_ok hfl with ⟨-, k⟩ | ⟨k, -⟩
    · refine .inl ⟨?_, k⟩
      unfold Entry.view
      rw [View.mk.injEq]
      refine ⟨rfl, rfl, ?_, rfl, rfl⟩
      unfold Entry.title
      rw [← ht]
    · rw [h.clean_read he] at k
      cases k

/-- changing the mimetype of an item -/
theorem Has.retype (h : Has true none S ML reserve Gb.flatten recent rs c)
    (h1 : List.Forall₂ (fun G l => (present true G).Perm l) Gb done) (hn : ∀ l ∈ done, (l.map fun p => p.1.fullUrl).Nodup)
    (hC : ∀ l ∈ done, ∀ p ∈ l, p.1.isArticle = true → p.1.ns = "C") (ham : Amendable u recent rs) (hML : ML.length < 65535)
    {v : StrArg} {b : Bytes} {t : String} (hb : v.both = .ok (b, t)) (ht : encode t ∈ ML)
    (hok : Creator.setMimetype S u v c = (.ok (), c')) :
    ∃ Gb', List.Forall₂ (fun G l => (present true G).Perm l) Gb' (amendIn u (Item.retyped t) done) ∧
      Has true none S ML reserve Gb'.flatten recent rs c' := by
  obtain ⟨e0, b', t', i, m, e', Z', he, hb', n1, n2, hg, hs, hfl, rfl⟩ := Creator.setMimetype_ok hok
  rw [hb] at hb'
  injection hb' with hb'
  injection hb' with e1 e2
  subst e1
  subst e2
  have hbe := Entry.both_inv hb
  obtain ⟨hmi, hi, hgi⟩ : MimesIn ML m ∧ i < 65535 ∧ m.get i = .ok (encode t) := by
    obtain ⟨G, P1, P2, ⟨rows, cs, extra, es, L, m0, R, B, hc, hB⟩, -⟩ := h
    have hmi := hc.mimes.getIndex ht hg
    obtain ⟨j, g1, g2, g3, -⟩ := MimeTypeList.C10_register c.arch.zim.mimetypes hc.mimes.mutable (encode t)
    rw [hg] at g1 g2 g3
    simp only at g1 g2 g3
    injection g1 with g1
    injection g1 with g1
    subst g1
    refine ⟨hmi, ?_, g3⟩
    have := hmi.length
    unfold MimeTypeList.len at g2
    omega
  have hE : ∀ it c' b e, EntryFor m it c' b e → EntryFor m (Item.retyped t it) c' b (Entry.typed i e) :=
    fun it c b e k => ⟨k.ns, k.url, k.title, k.article, hgi, k.location⟩
  unfold Entry.setMimetypeId at hs
  split at hs
  · cases hs
  split at hs
  · cases hs
  have hp : e0.Clean → (∃ i j, e0.kind = .content i j) → (Entry.typed i e0).Proper := by
    rintro hcl ⟨k1, k2, hk⟩
    refine ⟨hcl.storable.url, hcl.storable.title, ?_, fun hf => ?_⟩
    · constructor
      · rintro ⟨r, hr⟩
        rw [show (Entry.typed i e0).kind = e0.kind from rfl, hk] at hr
        cases hr
      · intro hr
        rw [show (Entry.typed i e0).mimetypeId = i from rfl] at hr
        omega
    · rw [show (Entry.typed i e0).forceIsArticle = e0.forceIsArticle from rfl, ← hcl.fresh] at hf
      cases hf
  refine h.amend h1 hn hC ham (sameUrl_retyped t) (m := m) (.inr ⟨encode t, _, ⟨?_, by rw [← hbe]; exact n2, ht⟩, hg⟩) (amends_typed i) hE he hp
    (.inr ⟨rfl, fun _ => rfl⟩) (d := S.depth) ?_
  · intro h0
    rw [hbe, h0] at n1
    exact n1 rfl
  split at hs
  · injection hs with _ hs
    subst hs
    rcases Zim.flushEntry_ok hfl with ⟨k, -⟩ | ⟨-, k⟩
    · cases k
    · exact .inr (by simpa using k)
  · rename_i ht
    rw [ne_eq, not_not] at ht
    injection hs with _ hs
    subst hs
    rcases Zim.flushEntry_ok hfl with ⟨-, k⟩ | ⟨k, -⟩
    · refine .inl ⟨?_, k⟩
      unfold Entry.view
      rw [View.mk.injEq]
      exact ⟨rfl, rfl, rfl, by simpa using ht, rfl⟩
    · rw [h.clean_read he] at k
      cases k

end
end Pyzim
