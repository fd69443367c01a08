import Verif.Lemmas.CreatorSet

/-!
# An archive filled by strategies: what it shows
-/

namespace Pyzim
open Zim (Row Stored Clustered Works Lists Art MimesIn catalogue marked clusterAt Redirect catalogue_snoc
  catalogue_other)
open SpaceAllocator (InBlock)

variable {D K : Type} {X : Codecs D} {C : Compressors K} {ML : List Bytes} {reserve : Option Nat} {a a' : Archive}
  {G G' : List (List Sourced)} {rows : List Row} {cs : List Stored} {extra : Nat → Prop} {es : List Entry} {L : Bytes}
  {S : Setup D K} {G0 : List (List Sourced)} {items : List Sourced} {rs : List Redirect}
  {c c' : Creator D} {m0 : Catalogue} {R B : List Redirect}

/-! ### The last ones -/

section
variable {α β : Type}

/-- for each key the last one -/
def lastOnes (key : α → String) (l : List α) : List α :=
  l.foldl (fun acc x => acc.filter (fun y => key x ≠ key y) ++ [x]) []

theorem lastOnes_snoc (key : α → String) (l : List α) (x : α) :
    lastOnes key (l ++ [x]) = (lastOnes key l).filter (fun y => key x ≠ key y) ++ [x] := by
  unfold lastOnes
  rw [List.foldl_append]; rfl

theorem lastOnes_sub {key : α → String} {l : List α} {x : α} (h : x ∈ lastOnes key l) : x ∈ l := by
  induction l using snoc_induction with
  | h0 => cases h
  | h1 l y ih =>
    rw [lastOnes_snoc] at h
    rcases List.mem_append.1 h with h | h
    · exact List.mem_append_left _ (ih (List.mem_filter.1 h).1)
    · exact List.mem_append_right _ h

theorem lastOnes_nodup (key : α → String) (l : List α) : ((lastOnes key l).map key).Nodup := by
  induction l using snoc_induction with
  | h0 => exact List.nodup_nil
  | h1 l x ih =>
    rw [lastOnes_snoc, List.map_append, List.nodup_append]
    refine ⟨ih.sublist (List.filter_sublist.map _), by simp, ?_⟩
    intro u hu v hv
    obtain ⟨y, hy, rfl⟩ := List.mem_map.1 hu
    simp only [List.map_cons, List.map_nil, List.mem_singleton] at hv
    rw [hv]
    have := (List.mem_filter.1 hy).2
    rw [decide_eq_true_eq] at this
    exact Ne.symm this

theorem lastOnes_key {key : α → String} {l : List α} {x : α} (h : x ∈ l) : ∃ y ∈ lastOnes key l, key y = key x := by
  induction l using snoc_induction with
  | h0 => cases h
  | h1 l z ih =>
    rw [lastOnes_snoc]
    by_cases hz : key z = key x
    · exact ⟨z, by simp, hz⟩
    · rcases List.mem_append.1 h with h | h
      · obtain ⟨y, hy, e⟩ := ih h
        exact ⟨y, List.mem_append_left _ (List.mem_filter.2 ⟨hy, by simpa [e] using hz⟩), e⟩
      · rw [List.mem_singleton] at h; rw [h] at hz; exact absurd rfl hz

theorem lastOnes_map (f : α → β) (key : β → String) (l : List α) :
    lastOnes key (l.map f) = (lastOnes (fun x => key (f x)) l).map f := by
  induction l using snoc_induction with
  | h0 => rfl
  | h1 l x ih =>
    rw [List.map_append, List.map_cons, List.map_nil, lastOnes_snoc, lastOnes_snoc, ih, List.map_append, List.filter_map]
    rfl

theorem forall₂_filter {R : α → β → Prop} {l : List α} {m : List β} {f : α → Bool} {g : β → Bool}
    (h : List.Forall₂ R l m) (hfg : ∀ a b, R a b → f a = g b) : List.Forall₂ R (l.filter f) (m.filter g) := by
  induction h with
  | nil => exact .nil
  | @cons a b l m h1 _ ih =>
    have := hfg a b h1
    cases hf : f a with
    | true => rw [List.filter_cons_of_pos hf, List.filter_cons_of_pos (by rw [← this]; exact hf)]; exact .cons h1 ih
    | false =>
      rw [List.filter_cons_of_neg (by rw [hf]; simp), List.filter_cons_of_neg (by rw [← this, hf]; simp)]; exact ih

theorem lastOnes_forall₂ {R : α → β → Prop} {key : α → String} {key' : β → String} (hk : ∀ a b, R a b → key a = key' b)
    {l : List α} {m : List β} (h : List.Forall₂ R l m) : List.Forall₂ R (lastOnes key l) (lastOnes key' m) := by
  have key : ∀ (l : List α) (m : List β), List.Forall₂ R l m → ∀ (A : List α) (B : List β), List.Forall₂ R A B →
      List.Forall₂ R (l.foldl (fun acc x => acc.filter (fun y => key x ≠ key y) ++ [x]) A)
        (m.foldl (fun acc x => acc.filter (fun y => key' x ≠ key' y) ++ [x]) B) := by
    intro l m h
    induction h with
    | nil => intro A B hAB; exact hAB
    | @cons a b l m h1 _ ih =>
      intro A B hAB
      refine ih _ _ (List.rel_append (forall₂_filter hAB fun x y hxy => ?_) (.cons h1 .nil))
      simp only [hk a b h1, hk x y hxy]
  exact key l m h [] [] .nil

/-- a list with different keys replaces what came before -/
theorem lastOnes_append (key : α → String) (l : List α) {m : List α} (hn : (m.map key).Nodup) :
    lastOnes key (l ++ m) = (lastOnes key l).filter (fun y => m.all fun x => key x ≠ key y) ++ m := by
  induction m using snoc_induction with
  | h0 => simp
  | h1 m x ih =>
    rw [List.map_append, List.nodup_append] at hn
    rw [← List.append_assoc, lastOnes_snoc, ih hn.1, List.filter_append, List.append_assoc, List.filter_filter]
    congr 1
    · refine List.filter_congr fun y _ => ?_
      rw [List.all_append, Bool.and_comm]
      simp
    · congr 1
      rw [List.filter_eq_self]
      intro y hy
      have := hn.2.2 _ (List.mem_map.2 ⟨y, hy, rfl⟩) (key x) (by simp)
      simpa using fun e => this e.symm

end

theorem catalogue_iff (m0 : Catalogue) (es : List Entry) (u : String) (v : View) : catalogue m0 es u = some v ↔
    (∃ e ∈ lastOnes Entry.fullUrl es, e.fullUrl = u ∧ e.view = v) ∨ (u ∉ es.map Entry.fullUrl ∧ m0 u = some v) := by
  induction es using snoc_induction with
  | h0 => simp [catalogue, lastOnes]
  | h1 es x ih =>
    rw [catalogue_snoc, lastOnes_snoc]
    unfold Catalogue.write
    by_cases hx : u = x.fullUrl
    · rw [if_pos hx]
      constructor
      · intro h; injection h with h; exact .inl ⟨x, by simp, hx.symm, h⟩
      · rintro (⟨e, he, h1, h2⟩ | ⟨h, -⟩)
        · rcases List.mem_append.1 he with he | he
          · have := (List.mem_filter.1 he).2
            rw [h1, hx] at this
            simp at this
          · rw [List.mem_singleton] at he; rw [← he, h2]
        · exact absurd (by rw [hx]; simp) h
    · have hn : u ∉ (es ++ [x]).map Entry.fullUrl ↔ u ∉ es.map Entry.fullUrl := by simp [hx]
      rw [if_neg hx, if_neg (by simpa using hx), ih, hn]
      refine or_congr ?_ Iff.rfl
      constructor
      · rintro ⟨e, he, h1, h2⟩
        exact ⟨e, List.mem_append_left _ (List.mem_filter.2 ⟨he, by rw [h1]; simpa using Ne.symm hx⟩), h1, h2⟩
      · rintro ⟨e, he, h1, h2⟩
        rcases List.mem_append.1 he with he | he
        · exact ⟨e, (List.mem_filter.1 he).1, h1, h2⟩
        · rw [List.mem_singleton] at he; rw [he] at h1; exact absurd h1.symm hx

theorem marked_snoc (S0 : String → Prop) (es : List Entry) (e : Entry) (u : String) :
    marked S0 (es ++ [e]) u ↔ (marked S0 es u ∧ u ≠ e.fullUrl) ∨ (u = e.fullUrl ∧ Zim.MarksArticle e (marked S0 es)) := by
  unfold marked
  rw [List.foldl_append]
  rfl

theorem marked_iff {es : List Entry} (h : ∀ e ∈ es, e.forceIsArticle ≠ none) (u : String) :
    marked (fun _ => False) es u ↔
      ∃ e ∈ lastOnes Entry.fullUrl es, e.fullUrl = u ∧ e.forceIsArticle = some true := by
  induction es using snoc_induction with
  | h0 => simp [marked, lastOnes]
  | h1 es x ih =>
    have hx := h x (by simp)
    have hm : ∀ S, Zim.MarksArticle x S ↔ x.forceIsArticle = some true := by
      intro S
      unfold Zim.MarksArticle
      cases hf : x.forceIsArticle with
      | none => exact absurd hf hx
      | some b => simp
    rw [marked_snoc, ih (fun e he => h e (List.mem_append_left _ he)), hm, lastOnes_snoc]
    constructor
    · rintro (⟨⟨e, he, h1, h2⟩, h3⟩ | ⟨h1, h2⟩)
      · exact ⟨e, List.mem_append_left _ (List.mem_filter.2 ⟨he, by rw [h1]; simpa using Ne.symm h3⟩), h1, h2⟩
      · exact ⟨x, by simp, h1.symm, h2⟩
    · rintro ⟨e, he, h1, h2⟩
      rcases List.mem_append.1 he with he | he
      · obtain ⟨he, h3⟩ := List.mem_filter.1 he
        rw [h1] at h3
        exact .inl ⟨⟨e, he, h1, h2⟩, by simpa using fun e => (by simpa using h3 : ¬ x.fullUrl = u) e.symm⟩
      · rw [List.mem_singleton] at he
        rw [he] at h1 h2
        exact .inr ⟨h1.symm, h2⟩

theorem EntryFor.forced {m : MimeTypeList} {it : Item} {c b : Nat} {e : Entry} (h : EntryFor m it c b e) :
    e.forceIsArticle = some it.isArticle := by
  have := h.article none
  unfold Entry.isArticle at this
  cases hf : e.forceIsArticle with
  | none => rw [hf] at this; cases this
  | some b => rw [hf] at this; injection this with this; rw [this]

/-! ### Where the items are -/

/-- items with the numbers of their cluster and blob -/
def located (base : Nat) : List (List Sourced) → List (Sourced × Nat × Nat)
  | [] => []
  | g :: gs => (g.zipIdx.map fun p => (p.1, base, p.2)) ++ located (base + 1) gs

theorem slots_located {base : Nat} {G : List (List Sourced)} :
    slots base G = (located base G).map fun t => (t.1.1, t.2) := by
  induction G generalizing base with
  | nil => rfl
  | cons g G ih =>
    unfold slots located
    rw [List.map_append, ih, List.map_map]
    rfl

theorem located_fst {base : Nat} {G : List (List Sourced)} : (located base G).map Prod.fst = G.flatten := by
  induction G generalizing base with
  | nil => rfl
  | cons g G ih =>
    unfold located
    rw [List.map_append, ih, List.flatten_cons, List.map_map]
    congr 1
    exact List.zipIdx_map_fst _ _

theorem located_mem {base : Nat} {G : List (List Sourced)} {t : Sourced × Nat × Nat} (h : t ∈ located base G) :
    ∃ i g, t.2.1 = base + i ∧ G[i]? = some g ∧ g[t.2.2]? = some t.1 := by
  induction G generalizing base with
  | nil => cases h
  | cons g G ih =>
    unfold located at h
    rcases List.mem_append.1 h with h | h
    · obtain ⟨q, hq, rfl⟩ := List.mem_map.1 h
      exact ⟨0, g, rfl, rfl, List.mem_zipIdx_iff_getElem?.1 hq⟩
    · obtain ⟨i, g', h1, h2, h3⟩ := ih h
      exact ⟨i + 1, g', by omega, by simpa using h2, h3⟩

/-- the items whose entries were not removed -/
def locatedOf (gh : Bool) (base : Nat) (G : List (List Sourced)) : List (Sourced × Nat × Nat) :=
  match gh with
  | false => located base G
  | true => (located base G).filter fun t => t.1.1.ns ++ t.1.1.url ≠ ""

theorem slotsOf_located {base : Nat} {G : List (List Sourced)} :
    slotsOf gh base G = (locatedOf gh base G).map fun t => (t.1.1, t.2) := by
  cases gh with
  | false => exact slots_located
  | true =>
    unfold slotsOf locatedOf
    simp only
    rw [slots_located, List.filter_map]
    rfl

theorem locatedOf_fst {base : Nat} {G : List (List Sourced)} : (locatedOf gh base G).map Prod.fst = present gh G := by
  cases gh with
  | false => exact located_fst
  | true =>
    unfold locatedOf present
    simp only
    rw [← located_fst (base := base), List.filter_map]
    rfl

theorem locatedOf_sub {base : Nat} {G : List (List Sourced)} : (locatedOf gh base G).Sublist (located base G) := by
  cases gh
  · exact .refl _
  · exact List.filter_sublist

/-- the url of the item -/
abbrev urlOf (p : Sourced) : String := p.1.fullUrl

/-- the entries that are not replaced -/
theorem last_of (hent : List.Forall₂ (fun (s : Item × Nat × Nat) e => EntryFor a.zim.mimetypes s.1 s.2.1 s.2.2 e)
      ((Creator.placeholder, 0, 0) :: slotsOf gh 1 G) es) (hoth : ∀ p ∈ G.flatten, p.1.ns ++ p.1.url ≠ URL_ARTICLES) :
    ∃ le es', lastOnes Entry.fullUrl es = le :: es' ∧ EntryFor a.zim.mimetypes Creator.placeholder 0 0 le ∧
      List.Forall₂ (fun t e => EntryFor a.zim.mimetypes t.1.1 t.2.1 t.2.2 e)
        (lastOnes (fun t => urlOf t.1) (locatedOf gh 1 G)) es' ∧
      (lastOnes (fun t => urlOf t.1) (locatedOf gh 1 G)).map Prod.fst = lastOnes urlOf (present gh G) := by
  have h1 : List.Forall₂ (fun (s : Item × Nat × Nat) e => EntryFor a.zim.mimetypes s.1 s.2.1 s.2.2 e)
      (lastOnes (fun s => s.1.fullUrl) ((Creator.placeholder, 0, 0) :: slotsOf gh 1 G)) (lastOnes Entry.fullUrl es) :=
    lastOnes_forall₂ (fun s e hse => (hse.fullUrl).symm) hent
  have hF : (lastOnes (fun t => urlOf t.1) (locatedOf gh 1 G)).map Prod.fst = lastOnes urlOf (present gh G) := by
    rw [← locatedOf_fst (base := 1) (G := G), lastOnes_map]
  have h2 : lastOnes (fun s : Item × Nat × Nat => s.1.fullUrl) ((Creator.placeholder, 0, 0) :: slotsOf gh 1 G) =
      (Creator.placeholder, 0, 0) :: lastOnes (fun s => s.1.fullUrl) (slotsOf gh 1 G) := by
    have : ∀ l : List (Item × Nat × Nat), (∀ s ∈ l, s.1.fullUrl ≠ Creator.placeholder.fullUrl) →
        lastOnes (fun s : Item × Nat × Nat => s.1.fullUrl) ((Creator.placeholder, 0, 0) :: l) =
          (Creator.placeholder, 0, 0) :: lastOnes (fun s => s.1.fullUrl) l := by
      intro l
      induction l using snoc_induction with
      | h0 => intro _; rfl
      | h1 l s ih =>
        intro hs
        rw [← List.cons_append, lastOnes_snoc, ih (fun s h => hs s (List.mem_append_left _ h)), lastOnes_snoc,
          List.filter_cons_of_pos (by simpa using hs s (by simp))]
        rfl
    refine this _ fun s hs => ?_
    obtain ⟨p, hp, hpe⟩ := slots_item (slotsOf_sub.subset hs)
    rw [← hpe]
    exact hoth p hp
  rw [h2] at h1
  generalize hl : lastOnes Entry.fullUrl es = les at h1
  cases h1 with
  | cons k1 k2 =>
    refine ⟨_, _, rfl, k1, ?_, hF⟩
    rw [slotsOf_located, lastOnes_map] at k2
    exact List.forall₂_map_left_iff.1 k2

theorem Readable.last (h : Readable gh X reserve a G rows cs extra es L m0 R) :
    ∃ le es', lastOnes Entry.fullUrl es = le :: es' ∧ EntryFor a.zim.mimetypes Creator.placeholder 0 0 le ∧
      List.Forall₂ (fun t e => EntryFor a.zim.mimetypes t.1.1 t.2.1 t.2.2 e)
        (lastOnes (fun t => urlOf t.1) (locatedOf gh 1 G)) es' ∧
      (lastOnes (fun t => urlOf t.1) (locatedOf gh 1 G)).map Prod.fst = lastOnes urlOf (present gh G) := last_of h.entries h.other

/-- what is known of the entry of an item: the cluster it is in and the blob it has there -/
structure Core.Found (X : Codecs D) (a : Archive) (p : Sourced) (e : Entry) (c off b : Nat) : Prop where
  found : a.zim.entryByFullUrl p.1.fullUrl = .ok e
  kind : e.kind = .content c b
  ns : e.ns = p.1.ns
  url : e.url = p.1.url
  title : e.title = if p.1.title = "" then p.1.url else p.1.title
  mimetype : a.zim.mimetypes.get e.mimetypeId = .ok (encode p.1.mimetype)
  cluster : a.zim.clusters.getByIndex (c : Int) = .ok (off : Int)
  blob : ∀ kind, Cluster.Gives X (Zim.clusterAt kind a.zim off) b p.2

theorem item_of (hent : List.Forall₂ (fun (s : Item × Nat × Nat) e => EntryFor a.zim.mimetypes s.1 s.2.1 s.2.2 e)
      ((Creator.placeholder, 0, 0) :: slotsOf gh 1 G) es) (hoth : ∀ p ∈ G.flatten, p.1.ns ++ p.1.url ≠ URL_ARTICLES)
    (hlists : Lists (catalogue m0 es) rows) {rest : Nat → Prop} (hcl : Clustered a.zim rows cs rest)
    (hst : ∀ i g, G[i]? = some g → ∃ st, cs[1 + i]? = some st ∧ ∀ kind b (hb : b < (g.map Prod.snd).length),
      Cluster.Gives X (Zim.clusterAt kind a.zim st.1) b (g.map Prod.snd)[b]) {p : Sourced}
    (hpi : p ∈ lastOnes urlOf (present gh G)) : ∃ e c off b, Core.Found X a p e c off b := by
  obtain ⟨le, es', hle, hlE, hF, hT⟩ := last_of hent hoth
  rw [← hT] at hpi
  obtain ⟨t, ht, rfl⟩ := List.mem_map.1 hpi
  obtain ⟨e, he', hE⟩ := forall₂_mem_left hF ht
  obtain ⟨i, g, h0, h1, h2⟩ := located_mem (locatedOf_sub.subset (lastOnes_sub ht))
  rw [h0] at hE
  have he : e ∈ lastOnes Entry.fullUrl es := by rw [hle]; exact List.mem_cons_of_mem _ he'
  generalize t.1 = p at *
  generalize t.2.2 = b at *
  have hu : e.fullUrl = p.1.fullUrl := hE.fullUrl
  obtain ⟨r, hr, hru, hrv⟩ := (hlists _ _).1 ((catalogue_iff m0 es _ _).2 (.inl ⟨e, he, rfl, rfl⟩))
  have hk : r.2.kind = .content (1 + i) b := by
    have hb : r.2.view.body = e.view.body := by rw [hrv]
    unfold Entry.view at hb
    rw [hE.location] at hb
    simp only at hb
    cases hk : r.2.kind with
    | content c b => rw [hk] at hb; injection hb with h1 h2; rw [h1, h2]
    | redirect i => rw [hk] at hb; cases hb
  obtain ⟨st, c3, c5⟩ := hst i g h1
  obtain ⟨hb, hbe⟩ := List.getElem?_eq_some_iff.1 h2
  have hb' : b < (g.map Prod.snd).length := by rw [List.length_map]; exact hb
  have c6 := fun kind => c5 kind b hb'
  have hpb : (g.map Prod.snd)[b] = p.2 := by rw [List.getElem_map, hbe]
  simp only [hpb] at c6
  refine ⟨r.2, 1 + i, st.1, b, ?_, hk, ?_, ?_, ?_, ?_, ?_, c6⟩
  · rw [← hu, ← hru]
    exact hcl.rep.entryByFullUrl hr
  · exact (congrArg View.ns hrv).trans hE.ns
  · exact (congrArg View.url hrv).trans hE.url
  · refine (congrArg View.title hrv).trans ?_
    show e.title = _
    unfold Entry.title
    rw [hE.title, hE.url]
  · rw [show r.2.mimetypeId = e.mimetypeId from congrArg View.mimetype hrv]
    exact hE.mimetype
  · exact hcl.getByIndex c3

theorem Readable.item (h : Readable gh X reserve a G rows cs extra es L m0 R) {p : Sourced}
    (hpi : p ∈ lastOnes urlOf (present gh G)) : ∃ e c off b, Core.Found X a p e c off b := by
  exact item_of h.entries h.other h.lists h.parts.content h.blobs hpi

/-- with clusters which know their end also if there are unsaved changes -/
theorem Core.live (hR : Replaceable X C) (h : Core gh mp X C ML reserve a G rows cs extra es L m0 R B) {p : Sourced}
    (hpi : p ∈ lastOnes urlOf (present gh G)) : ∃ e c off b, Core.Found X a p e c off b := by
  refine item_of h.entries h.other h.lists h.laid.content (fun i g h1 => ?_) hpi
  obtain ⟨ext, cl, f1, -, f3⟩ := h.first
  obtain ⟨st, c3, -, -, t, hne, c4⟩ := stored_of f1 f3 h1
  obtain ⟨ext', hat⟩ := c4.isCluster hR hne
  obtain ⟨A, -⟩ := hat _ _ (h.laid.content.held _ (List.mem_of_getElem? c3))
  exact ⟨st, c3, fun kind => (A.blobs (.fresh kind 0)).2⟩

theorem Readable.shows (h : Readable gh X reserve a G rows cs extra es L m0 R)
    (hp : (lastOnes urlOf (present gh G)).Perm items) (hR : R.Perm rs) (hrn : (rs.map (·.1)).Nodup)
    (hre : ∀ r ∈ rs, r.1 ∉ es.map Entry.fullUrl) (kind : ClusterKind) (calls : Nat) :
    ShowsItems X kind calls (Archive.loaded false { pointers := a.zim.articles.pointers } a).zim items rs := by
  obtain ⟨le, es', hle, hlE, hF, hT⟩ := h.last
  have hmem : ∀ p, p ∈ items ↔ p ∈ lastOnes urlOf (present gh G) := fun p => hp.mem_iff.symm
  have hn : (items.map urlOf).Nodup := (hp.map _).nodup_iff.1 (lastOnes_nodup _ _)
  have hS := h.parts.content.rep.shows_iff.2 h.lists
  have hfind : ∀ p ∈ items, ∃ i b g e, G[i]? = some g ∧ g[b]? = some p ∧ e ∈ lastOnes Entry.fullUrl es ∧
      EntryFor a.zim.mimetypes p.1 (1 + i) b e := by
    intro p hpi
    have := (hmem p).1 hpi
    rw [← hT] at this
    obtain ⟨t, ht, rfl⟩ := List.mem_map.1 this
    obtain ⟨e, he, hE⟩ := forall₂_mem_left hF ht
    obtain ⟨i, g, h1, h2, h3⟩ := located_mem (locatedOf_sub.subset (lastOnes_sub ht))
    rw [h1] at hE
    exact ⟨i, _, g, e, h2, h3, by rw [hle]; exact List.mem_cons_of_mem _ he, hE⟩
  have hback : ∀ e ∈ lastOnes Entry.fullUrl es, e = le ∨ ∃ p ∈ items, ∃ c b, EntryFor a.zim.mimetypes p.1 c b e := by
    intro e he
    rw [hle] at he
    rcases List.mem_cons.1 he with he | he
    · exact .inl he
    · obtain ⟨t, ht, hE⟩ := forall₂_mem_right hF he
      exact .inr ⟨t.1, (hmem _).2 (by rw [← hT]; exact List.mem_map.2 ⟨t, ht, rfl⟩), _, _, hE⟩
  have hurls : (lastOnes Entry.fullUrl es).map Entry.fullUrl = URL_ARTICLES :: (lastOnes urlOf (present gh G)).map urlOf := by
    rw [hle, List.map_cons, ← hT, show le.fullUrl = URL_ARTICLES from hlE.fullUrl]
    congr 1
    clear hle hT hfind hback
    revert hF
    generalize lastOnes (fun t => urlOf t.1) (locatedOf gh 1 G) = l
    intro hF
    induction hF with
    | nil => rfl
    | cons k1 _ ih => rw [List.map_cons, List.map_cons, List.map_cons, ih, k1.fullUrl]; rfl
  have hshown : ∀ r ∈ rs, ∃ v, catalogue m0 es r.1 = some v ∧ r.Shown v := by
    intro r hr
    obtain ⟨v, k1, k2⟩ := h.shown r (hR.mem_iff.2 hr)
    exact ⟨v, by rw [catalogue_other m0 (hre r hr)]; exact k1, k2⟩
  have hcat : ∀ u v, catalogue m0 es u = some v → (∃ e ∈ lastOnes Entry.fullUrl es, e.fullUrl = u) ∨ ∃ r ∈ rs, r.1 = u := by
    intro u v hc
    rcases (catalogue_iff m0 es u v).1 hc with ⟨e, he, h1, -⟩ | ⟨-, h2⟩
    · exact .inl ⟨e, he, h1⟩
    · obtain ⟨r, hr, e⟩ := h.only u v h2
      exact .inr ⟨r, hR.mem_iff.1 hr, e⟩
  refine ⟨?_, ?_, ?_, ?_, ?_⟩
  · intro p hpi
    obtain ⟨e, c, off, b, hf⟩ := h.item ((hmem p).1 hpi)
    have hg : (Archive.loaded false { pointers := a.zim.articles.pointers } a).zim.clusters.getByIndex (c : Int) =
        .ok (off : Int) := hf.cluster
    refine ⟨e, ?_, hf.ns, hf.url, hf.title, hf.mimetype, ?_, ?_⟩
    · rw [Archive.loaded_entryByFullUrl]
      exact hf.found
    · unfold Zim.contentSize
      rw [hf.kind]
      simp only
      rw [if_neg (by simp [Archive.loaded]), hg]
      exact (hf.blob kind).size
    · unfold Zim.readContent
      rw [hf.kind]
      simp only [Zim.checkRange, bind, Except.bind]
      unfold Zim.readBlobOf
      rw [if_neg (by simp [Archive.loaded]), hg]
      exact (hf.blob kind).whole
  · intro r hr
    obtain ⟨v, k1, k2⟩ := hshown r hr
    obtain ⟨q, hq, hqu, hqv⟩ := (h.lists _ _).1 k1
    refine ⟨q.2, ?_, ?_, hqu, ?_⟩
    · rw [Archive.loaded_entryByFullUrl, ← hqu]
      exact h.parts.content.rep.entryByFullUrl hq
    · have := k2.body
      rw [← hqv] at this
      unfold Entry.view at this
      refine (h.parts.content.rep.store.clean q hq).isRedirect.2 ?_
      cases hk : q.2.kind with
      | content c b => rw [hk] at this; cases this
      | redirect i => exact ⟨i, rfl⟩
    · intro t ht
      have := k2.title t ht
      rw [← hqv] at this
      exact this
  · intro u hu1 hu2 hu3
    rw [Archive.loaded_entryByFullUrl]
    refine hS.missing u ?_
    cases hc : catalogue m0 es u with
    | none => rfl
    | some v =>
      rcases hcat u v hc with ⟨e, he, h1⟩ | ⟨r, hr, e⟩
      · rcases hback e he with rfl | ⟨p, hp1, c, b, hE⟩
        · exact absurd (h1.symm.trans hlE.fullUrl) hu1
        · exact absurd (hE.fullUrl.symm.trans h1) (hu2 p hp1)
      · exact absurd e (hu3 r hr)
  · obtain ⟨ls, g1, g2, g3, -⟩ := hS.iter
    refine ⟨ls, g1, ?_⟩
    have hnl : (ls.map Entry.fullUrl).Nodup := by
      rw [List.Nodup, List.pairwise_map]
      refine g2.imp fun hlt heq => ?_
      rw [heq] at hlt
      exact absurd hlt (List.lt_irrefl _)
    have hn2 : ((lastOnes Entry.fullUrl es).map Entry.fullUrl ++ rs.map (·.1)).Nodup := by
      rw [List.nodup_append]
      refine ⟨lastOnes_nodup _ _, hrn, fun x hx y hy e => ?_⟩
      obtain ⟨e1, he1, rfl⟩ := List.mem_map.1 hx
      obtain ⟨r, hr, rfl⟩ := List.mem_map.1 hy
      exact hre r hr (by rw [← e]; exact List.mem_map_of_mem (lastOnes_sub he1))
    have hp' : (ls.map Entry.fullUrl).Perm ((lastOnes Entry.fullUrl es).map Entry.fullUrl ++ rs.map (·.1)) := by
      rw [List.perm_ext_iff_of_nodup hnl hn2]
      intro u
      rw [List.mem_map, List.mem_append, List.mem_map, List.mem_map]
      constructor
      · rintro ⟨e, he, rfl⟩
        exact hcat _ _ ((g3 _ _).2 ⟨e, he, rfl, rfl⟩)
      · rintro (⟨e, he, rfl⟩ | ⟨r, hr, rfl⟩)
        · obtain ⟨e', he', hu, -⟩ := (g3 _ _).1 ((catalogue_iff m0 es _ _).2 (.inl ⟨e, he, rfl, rfl⟩))
          exact ⟨e', he', hu⟩
        · obtain ⟨v, k1, -⟩ := hshown r hr
          obtain ⟨e', he', hu, -⟩ := (g3 _ _).1 k1
          exact ⟨e', he', hu⟩
    rw [hurls] at hp'
    exact hp'.trans (((hp.map _).append_right _).cons _)
  · obtain ⟨ls, g1, g2, g3, g4, -⟩ := (h.parts.content.rep.articles h.art).iter
    refine ⟨ls, g1, ?_, g4⟩
    refine (List.perm_ext_iff_of_nodup g2 (List.Nodup.sublist (List.filter_sublist.map _) hn)).2 fun u => ?_
    rw [List.mem_map]
    refine (g3 u).symm.trans ((marked_iff (fun e he => ?_) u).trans ?_)
    · obtain ⟨s, -, hs⟩ := forall₂_mem_right h.entries he
      rw [hs.forced]; simp
    constructor
    · rintro ⟨e, he, h1, h2⟩
      rcases hback e he with rfl | ⟨p, hp1, c, b, hE⟩
      · rw [hlE.forced] at h2; cases h2
      · refine List.mem_map.2 ⟨p, List.mem_filter.2 ⟨hp1, ?_⟩, hE.fullUrl.symm.trans h1⟩
        rw [hE.forced] at h2
        injection h2
    · intro hu
      obtain ⟨p, hp1, hp2⟩ := List.mem_map.1 hu
      obtain ⟨hp1, hp3⟩ := List.mem_filter.1 hp1
      obtain ⟨i, b, g, e, -, -, he, hE⟩ := hfind p hp1
      exact ⟨e, he, hE.fullUrl.trans hp2, by rw [hE.forced, hp3]⟩

theorem Core.item (h : Core gh mp X C ML reserve a G rows cs extra es L m0 R B) (hd : a.isDirty = false) {p : Sourced}
    (hpi : p ∈ lastOnes urlOf (present gh G)) : ∃ e c off b, Core.Found X a p e c off b := (h.readable hd).item hpi

theorem Core.shows (h : Core gh mp X C ML reserve a G rows cs extra es L m0 R []) (hd : a.isDirty = false)
    (hp : (lastOnes urlOf (present gh G)).Perm items) (hR : R.Perm rs) (hrn : (rs.map (·.1)).Nodup)
    (hre : ∀ r ∈ rs, r.1 ∉ es.map Entry.fullUrl) (kind : ClusterKind) (calls : Nat) :
    ShowsItems X kind calls (Archive.loaded false { pointers := a.zim.articles.pointers } a).zim items rs :=
  (h.readable hd).shows hp hR hrn hre kind calls

theorem current_snoc (ls : List (List Sourced)) (l : List Sourced) :
    current (ls ++ [l]) = (current ls).filter (fun p => l.all fun q => q.1.fullUrl ≠ p.1.fullUrl) ++ l := by
  unfold current
  rw [List.foldl_append]; rfl

/-- the groups of items, one after the other -/
theorem current_present {Gb : List (List (List Sourced))} {ls : List (List Sourced)}
    (h : List.Forall₂ (fun G l => (present gh G).Perm l) Gb ls) (hn : ∀ l ∈ ls, (l.map urlOf).Nodup) :
    (lastOnes urlOf (present gh Gb.flatten)).Perm (current ls) := by
  induction ls using snoc_induction generalizing Gb with
  | h0 => cases h; cases gh <;> exact .nil
  | h1 ls l ih =>
    obtain ⟨Gs, G, h1, h2, rfl⟩ : ∃ Gs G, List.Forall₂ (fun (G : List (List Sourced)) l => (present gh G).Perm l) Gs ls ∧ (present gh G).Perm l ∧
        Gb = Gs ++ [G] := by
      obtain ⟨Gs, G1, g1, g2, g3⟩ : ∃ Gs G1, List.Forall₂ (fun (G : List (List Sourced)) l => (present gh G).Perm l) Gs ls ∧
          List.Forall₂ (fun (G : List (List Sourced)) l => (present gh G).Perm l) G1 [l] ∧ Gb = Gs ++ G1 := by
        refine ⟨Gb.take ls.length, Gb.drop ls.length, ?_, ?_, (List.take_append_drop _ _).symm⟩
        · have := List.forall₂_take ls.length h; rwa [List.take_left' rfl] at this
        · have := List.forall₂_drop ls.length h; rwa [List.drop_left' rfl] at this
      cases g2 with
      | cons k1 k2 => cases k2; exact ⟨Gs, _, g1, k1, g3⟩
    rw [List.flatten_append, present_append, current_snoc]
    have e : present gh ([G] : List (List (List Sourced))).flatten = present gh G := by simp
    rw [e, lastOnes_append urlOf _ ((h2.map _).nodup_iff.2 (hn l (by simp)))]
    refine List.Perm.append ?_ h2
    have hf : (fun y : Sourced => (present gh G).all fun x => urlOf x ≠ urlOf y) = fun p => l.all fun q => q.1.fullUrl ≠ p.1.fullUrl := by
      funext y
      rw [Bool.eq_iff_iff, List.all_eq_true, List.all_eq_true]
      exact ⟨fun k x hx => k x (h2.mem_iff.2 hx), fun k x hx => k x (h2.mem_iff.1 hx)⟩
    rw [hf]
    exact (ih h1 fun l hl => hn l (List.mem_append_left _ hl)).filter _

theorem current_perm {Gb : List (List (List Sourced))} {ls : List (List Sourced)}
    (h : List.Forall₂ (fun G l => G.flatten.Perm l) Gb ls) (hn : ∀ l ∈ ls, (l.map urlOf).Nodup) :
    (lastOnes urlOf Gb.flatten.flatten).Perm (current ls) := current_present (gh := false) h hn

theorem CreatorHist.valid {done : List (List Sourced)} {recent : List Sourced} (h : CreatorHist S c done recent rs) :
    ∀ r ∈ rs, Redirect.Valid r := by
  induction h with
  | new => intro r hr; cases hr
  | add _ _ _ ih => exact ih
  | redirect _ hv _ _ ih =>
    intro r hr
    rcases List.mem_append.1 hr with hr | hr
    · exact ih r hr
    · rw [List.mem_singleton] at hr; rw [hr]; exact hv
  | set _ _ _ _ _ _ _ ih => exact ih
  | flush _ _ ih => exact ih
  | reopen _ _ _ _ _ _ ih => exact ih

/-- the sources of the redirects differ from the urls of everything else -/
theorem Apart.separate {done : List (List Sourced)} {recent : List Sourced} (h : Apart rs (done ++ [recent]))
    (hv : ∀ r ∈ rs, Redirect.Valid r) {Gb : List (List (List Sourced))}
    (hG : List.Forall₂ (fun G l => G.flatten.Perm l) Gb done) : Separate rs Gb.flatten recent := by
  refine ⟨hv, h.nodup, h.articles, fun r hr p hp => ?_, fun r hr p hp => h.items r hr recent (by simp) p hp⟩
  rw [List.mem_flatten] at hp
  obtain ⟨g, hg, hp⟩ := hp
  obtain ⟨G, hGm, hgG⟩ := List.mem_flatten.1 hg
  obtain ⟨l, hl, hperm⟩ := forall₂_mem_left hG hGm
  exact h.items r hr l (List.mem_append_left _ hl) p (hperm.subset (List.mem_flatten.2 ⟨g, hgG, hp⟩))

theorem Apart.unset {u : String} {src : BlobSource} {content : Bytes} {done : List (List Sourced)} {recent : List Sourced}
    (h : Apart rs (setContentIn u src content done ++ [recent])) : Apart rs (done ++ [recent]) := by
  refine ⟨h.nodup, h.articles, fun r hr l hl p hp => ?_⟩
  rcases List.mem_append.1 hl with hl | hl
  · rcases setContentIn_old (u := u) (src := src) (content := content) hl with hl | hl
    · exact h.items r hr l (List.mem_append_left _ hl) p hp
    · rw [← withContent_url u src content p]
      exact h.items r hr _ (List.mem_append_left _ hl) _ (List.mem_map_of_mem hp)
  · exact h.items r hr l (List.mem_append_right _ hl) p hp

theorem Apart.sub {rs' : List Redirect} {l l' : List (List Sourced)} (h : Apart rs l) (h1 : rs'.Sublist rs)
    (h2 : ∀ x ∈ l', ∀ p ∈ x, ∃ y ∈ l, p ∈ y) : Apart rs' l' :=
  ⟨h.nodup.sublist (h1.map _), fun r hr => h.articles r (h1.subset hr), fun r hr x hx p hp => by
    obtain ⟨y, hy, hpy⟩ := h2 x hx p hp
    exact h.items r (h1.subset hr) y hy p hpy⟩

/-- the archive of a history has its items -/
theorem CreatorHist.has {md5 : Bytes → Bytes} {r : Nat} {done : List (List Sourced)} {recent : List Sourced} (hr : 2 ≤ r)
    (hS : S.Good md5 (some r)) (h : CreatorHist S c done recent rs) (hA : Apart rs (done ++ [recent]))
    (hML : ML.length < 65535) (hmt : encode Creator.placeholder.mimetype ∈ ML)
    (hm : ∀ l ∈ done ++ [recent], (l.map urlOf).Nodup ∧ NotHuge l ∧
      ∀ p ∈ l, encode p.1.mimetype ∈ ML ∧ p.1.fullUrl ≠ URL_ARTICLES) :
    ∃ Gb, List.Forall₂ (fun G l => G.flatten.Perm l) Gb done ∧ Has false none S ML (some r) Gb.flatten recent rs c := by
  induction h with
  | new hu W n1 n2 hok => exact ⟨[], .nil, Has.new hr hS hu W n1 n2 hML hmt hok⟩
  | @add c c' done recent rs p _ _ hp hok ih =>
    have hl := hm (recent ++ [p]) (by simp)
    have hn := hl.2.1.sublist (List.sublist_append_left recent [p])
    obtain ⟨Gb, h1, h2⟩ := ih (hA.sub (List.Sublist.refl _) fun x hx q hq => by
      rcases List.mem_append.1 hx with hx | hx
      · exact ⟨x, List.mem_append_left _ hx, hq⟩
      · rw [List.mem_singleton] at hx
        exact ⟨_, List.mem_append_right _ (List.mem_singleton.2 rfl), List.mem_append_left _ (hx ▸ hq)⟩) fun l hl' => by
      rcases List.mem_append.1 hl' with hl' | hl'
      · exact hm l (List.mem_append_left _ hl')
      · rw [List.mem_singleton] at hl'
        rw [hl']
        exact ⟨hl.1.sublist ((List.sublist_append_left recent [p]).map _), hn,
          fun p hp => hl.2.2 p (List.mem_append_left _ hp)⟩
    exact ⟨Gb, h1, h2.add hS hn hML hp.2 ⟨hp.1, (hl.2.2 _ (by simp)).1, hp.2.2⟩ (fun q hq => (hl.2.2 q hq).2) hok⟩
  | @redirect c c' done recent rs r hprev hv hok hd ih =>
    obtain ⟨Gb, h1, h2⟩ := ih (hA.sub (List.sublist_append_left _ _) fun x hx q hq => ⟨x, hx, hq⟩) hm
    exact ⟨Gb, h1, h2.redirect (hA.separate (hprev.redirect hv hok hd).valid h1) hok hd⟩
  | @set c c' done recent rs u src content hprev hR hh hu hrec hd hok ih =>
    have hm' : ∀ l ∈ done ++ [recent], (l.map urlOf).Nodup ∧ NotHuge l ∧
        ∀ p ∈ l, encode p.1.mimetype ∈ ML ∧ p.1.fullUrl ≠ URL_ARTICLES := by
      intro l hl
      rcases List.mem_append.1 hl with hl | hl
      · rcases setContentIn_old (u := u) (src := src) (content := content) hl with hl' | hl'
        · exact hm l (List.mem_append_left _ hl')
        · obtain ⟨k1, -, k2⟩ := hm _ (List.mem_append_left _ hl')
          refine ⟨?_, hh l hl, fun p hp => ?_⟩
          · rw [List.map_map] at k1
            have e : urlOf ∘ withContent u src content = urlOf := by funext p; exact withContent_url u src content p
            rwa [e] at k1
          · have := k2 _ (List.mem_map_of_mem hp)
            rwa [withContent_url, withContent_mimetype] at this
      · exact hm l (List.mem_append_right _ hl)
    obtain ⟨Gb, h1, h2⟩ := ih hA.unset hm'
    obtain ⟨hu0, h3⟩ := h2.set hR hd hu hrec hok
    obtain ⟨Gb', k1, k2⟩ := setContentIn_groups (gh := false) u hu0 src content h1 fun l hl => (hm' l (List.mem_append_left _ hl)).1
    exact ⟨Gb', k1, by rw [k2]; exact h3⟩
  | @flush c c' done recent rs hprev hok ih =>
    have hA' : Apart rs (done ++ [recent]) := hA.sub (List.Sublist.refl _) fun x hx q hq => ⟨x, List.mem_append_left _ hx, hq⟩
    obtain ⟨Gb, h1, h2⟩ := ih hA' fun l hl => hm l (List.mem_append_left _ hl)
    have hl := hm recent (by simp)
    obtain ⟨⟨G, k1, k2⟩, -⟩ := h2.flush hS hl.2.1 (fun q hq => (hl.2.2 q hq).2) (hA'.separate hprev.valid h1) hok
    refine ⟨Gb ++ [G], List.rel_append h1 (.cons k1 .nil), ?_⟩
    rw [List.flatten_append]
    simpa using k2
  | reopen _ hd W n1 n2 hok ih =>
    obtain ⟨Gb, h1, h2⟩ := ih hA hm
    exact ⟨Gb, h1, (h2.reopen hS hd W n1 n2 hok).1⟩

/-- what a reader sees -/
theorem CreatorHist.shows {md5 : Bytes → Bytes} {r : Nat} {done : List (List Sourced)} {recent : List Sourced} (hr : 2 ≤ r)
    (hS : S.Good md5 (some r)) (h : CreatorHist S c done recent rs) (hA : Apart rs (done ++ [recent]))
    (hd : c.arch.isDirty = false) (hML : ML.length < 65535)
    (hmt : encode Creator.placeholder.mimetype ∈ ML)
    (hm : ∀ l ∈ done ++ [recent], (l.map urlOf).Nodup ∧ NotHuge l ∧
      ∀ p ∈ l, encode p.1.mimetype ∈ ML ∧ p.1.fullUrl ≠ URL_ARTICLES)
    (kind : ClusterKind) (calls follow : Nat) (titles : Zim → PyRes PointerList) :
    ∃ a, Creator.openArchive { S with kind := kind, calls := calls, follow := follow } titles false c.arch.zim.file = .ok a ∧
      ShowsItems S.X kind calls a.zim (current (done ++ [recent])) rs := by
  obtain ⟨Gb, h1, G, P1, P2, ⟨rows, cs, extra, es, L, m0, R, B, hc, hB⟩, -, -, -, -, hperm, hcl⟩ := h.has hr hS hA hML hmt hm
  obtain ⟨rfl, rfl, hb⟩ := hcl hd
  replace hb := hb rfl
  obtain rfl : B = [] := hc.redirects.symm.trans hb
  rw [List.append_nil] at hB
  refine ⟨_, hc.opens (S := { S with kind := kind, calls := calls, follow := follow }) hS.passthrough hd titles false, ?_⟩
  refine hc.shows hd ?_ hB hA.nodup (fun r hr => hc.apart (hA.separate h.valid h1) (fun p hp => hperm.subset (by simpa using hp)) hr)
    kind calls
  have := current_perm (List.rel_append h1 (.cons (show G.flatten.Perm recent by simpa using hperm) .nil)) fun l hl => (hm l hl).1
  rw [List.flatten_append] at this
  simpa [present] using this

/-- the entries of the items, in the archive itself and in what opening its file gives -/
theorem CreatorHist.found {md5 : Bytes → Bytes} {r : Nat} {done : List (List Sourced)} {recent : List Sourced} (hr : 2 ≤ r)
    (hS : S.Good md5 (some r)) (h : CreatorHist S c done recent rs) (hA : Apart rs (done ++ [recent]))
    (hd : c.arch.isDirty = false) (hML : ML.length < 65535)
    (hmt : encode Creator.placeholder.mimetype ∈ ML)
    (hm : ∀ l ∈ done ++ [recent], (l.map urlOf).Nodup ∧ NotHuge l ∧
      ∀ p ∈ l, encode p.1.mimetype ∈ ML ∧ p.1.fullUrl ≠ URL_ARTICLES) :
    c.arch.zim.mutable = true ∧ c.arch.zim.closed = false ∧
    (∀ (kind : ClusterKind) (calls follow : Nat) (titles : Zim → PyRes PointerList),
      Creator.openArchive { S with kind := kind, calls := calls, follow := follow } titles false c.arch.zim.file =
        .ok (Archive.loaded false { pointers := c.arch.zim.articles.pointers } c.arch)) ∧
    ∀ p ∈ current (done ++ [recent]), ∃ e i off j, Core.Found S.X c.arch p e i off j := by
  obtain ⟨Gb, h1, G, P1, P2, ⟨rows, cs, extra, es, L, m0, R, B, hc, hB⟩, -, -, -, -, hperm, hcl⟩ := h.has hr hS hA hML hmt hm
  obtain ⟨rfl, rfl, hb⟩ := hcl hd
  replace hb := hb rfl
  obtain rfl : B = [] := hc.redirects.symm.trans hb
  rw [List.append_nil] at hB
  refine ⟨hc.laid.content.rep.isMutable, hc.laid.content.rep.isOpen, fun kind calls follow titles =>
    hc.opens (S := { S with kind := kind, calls := calls, follow := follow }) hS.passthrough hd titles false, fun p hp => ?_⟩
  have := current_perm (List.rel_append h1 (.cons (show G.flatten.Perm recent by simpa using hperm) .nil)) fun l hl => (hm l hl).1
  rw [List.flatten_append] at this
  exact hc.item hd ((show (lastOnes urlOf (Gb.flatten ++ G).flatten).Perm (current (done ++ [recent])) by simpa using this).mem_iff.2 hp)

theorem lastOnes_left {α : Type} {key : α → String} {l m : List α} {x : α} (h : x ∈ lastOnes key l) (hm : ∀ y ∈ m, key y ≠ key x) :
    x ∈ lastOnes key (l ++ m) := by
  induction m using snoc_induction with
  | h0 => rw [List.append_nil]; exact h
  | h1 m y ih =>
    rw [← List.append_assoc, lastOnes_snoc]
    refine List.mem_append_left _ (List.mem_filter.2 ⟨ih fun y hy => hm y (List.mem_append_left _ hy), ?_⟩)
    simpa using hm y (by simp)

/-- the entries of the items of earlier flushes, also if there are unsaved changes -/
theorem CreatorHist.live {md5 : Bytes → Bytes} {r : Nat} {done : List (List Sourced)} {recent : List Sourced} (hr : 2 ≤ r)
    (hS : S.Good md5 (some r)) (hR : Replaceable S.X S.C) (h : CreatorHist S c done recent rs) (hA : Apart rs (done ++ [recent]))
    (hML : ML.length < 65535) (hmt : encode Creator.placeholder.mimetype ∈ ML)
    (hm : ∀ l ∈ done ++ [recent], (l.map urlOf).Nodup ∧ NotHuge l ∧
      ∀ p ∈ l, encode p.1.mimetype ∈ ML ∧ p.1.fullUrl ≠ URL_ARTICLES) :
    c.arch.zim.mutable = true ∧ c.arch.zim.closed = false ∧
    ∀ p ∈ current done, (∀ q ∈ recent, q.1.fullUrl ≠ p.1.fullUrl) → ∃ e i off j, Core.Found S.X c.arch p e i off j := by
  obtain ⟨Gb, h1, G, P1, P2, ⟨rows, cs, extra, es, L, m0, R, B, hc, hB⟩, -, -, -, -, hperm, -⟩ := h.has hr hS hA hML hmt hm
  refine ⟨hc.laid.content.rep.isMutable, hc.laid.content.rep.isOpen, fun p hp hq => ?_⟩
  have := current_perm h1 fun l hl => (hm l (List.mem_append_left _ hl)).1
  refine hc.live hR ?_
  show p ∈ lastOnes urlOf (Gb.flatten ++ G).flatten
  rw [List.flatten_append]
  exact lastOnes_left (this.mem_iff.2 hp) fun q hq' => hq q (hperm.subset (List.mem_append_right _ hq'))

/-- the items after a content was set -/
theorem current_setContentIn (u : String) (src : BlobSource) (content : Bytes) (ls : List (List Sourced)) :
    current (setContentIn u src content ls) = (current ls).map (withContent u src content) := by
  induction ls using snoc_induction with
  | h0 => rfl
  | h1 ls l ih =>
    unfold setContentIn at ih ⊢
    rw [replaceLast_append]
    cases hany : l.any fun p => decide (p.1.fullUrl = u) with
    | true =>
      rw [if_pos (by simpa using hany)]
      have e : replaceLast (fun l : List Sourced => l.any fun p => decide (p.1.fullUrl = u)) (fun l => l.map (withContent u src content)) [l] =
          [l.map (withContent u src content)] := by
        unfold replaceLast
        rw [if_neg (by simp), if_pos hany]
      rw [e, current_snoc, current_snoc, List.map_append]
      congr 1
      have e2 : (fun p : Sourced => (l.map (withContent u src content)).all fun q => decide (q.1.fullUrl ≠ p.1.fullUrl)) =
          fun p => l.all fun q => decide (q.1.fullUrl ≠ p.1.fullUrl) := by
        funext p
        rw [List.all_map]
        congr 1
        funext q
        simp [withContent_url]
      rw [e2]
      conv_lhs => rw [← List.map_id (List.filter _ _)]
      refine List.map_congr_left fun p hp => ?_
      obtain ⟨q, hq, hqu⟩ := List.any_eq_true.1 hany
      have := List.all_eq_true.1 (List.mem_filter.1 hp).2 q hq
      unfold withContent
      rw [if_neg]
      · rfl
      · intro hpu
        rw [of_decide_eq_true hqu, hpu] at this
        simp at this
    | false =>
      rw [if_neg (by simpa using hany), current_snoc, current_snoc, ih, List.map_append, List.filter_map]
      have e : l.map (withContent u src content) = l := by
        conv_rhs => rw [← List.map_id l]
        refine List.map_congr_left fun p hp => ?_
        unfold withContent
        rw [if_neg]
        · rfl
        · intro hpu
          exact List.any_eq_false.1 hany p hp (decide_eq_true hpu)
      rw [e]
      congr 3
      funext p
      simp [withContent_url]

namespace Creator

theorem slots_urls {base : Nat} {G : List (List Sourced)} :
    (slots base G).map (fun s => s.1.fullUrl) = G.flatten.map fun p => p.1.fullUrl := by
  rw [slots_located, List.map_map]
  induction G generalizing base with
  | nil => rfl
  | cons g G ih =>
    unfold located
    rw [List.map_append, ih, List.flatten_cons, List.map_append]
    congr 1
    refine List.ext_getElem? fun i => ?_
    simp
    rfl

theorem entryFor_urls {M : MimeTypeList} {l : List (Item × Nat × Nat)} {es : List Entry}
    (h : List.Forall₂ (fun s e => EntryFor M s.1 s.2.1 s.2.2 e) l es) :
    es.map Entry.fullUrl = l.map fun s => s.1.fullUrl := by
  induction h with
  | nil => rfl
  | cons h _ ih => rw [List.map_cons, List.map_cons, ih, h.fullUrl]; rfl

end Creator
end Pyzim
