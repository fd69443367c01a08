import Verif.Lemmas.LowRam
import Verif.Lemmas.ToyCodec
import Verif.Props.Embedded

/-!
# C96: reading with the policy for little memory
-/

namespace Pyzim
namespace LowRam
variable {D K : Type} {X : Codecs D} {C : Compressors K} {kind kind' : ClusterKind} {follow base : Nat} {file : Bytes}
  {z : Embedded} {l : LowRam}

/-- **C96, in full:** an archive that can be opened with the default policy can be opened with `LOW_RAM_DECOMP_POLICY`, and shows
the same. -/
def C96Full (D : Type) : Prop := ∀ (X : Codecs D) (kind kind' : ClusterKind) (follow base : Nat) (file : Bytes) (z : Embedded),
  Embedded.load X kind' follow base file = .ok z → ∃ l, load X kind follow base file = .ok l ∧ ShowsSame X l z

theorem listing_congr (base : Nat) (y : Zim) (ts : Option PointerList) (as : PointerList) (u : String) :
    Embedded.listFromEntry X kind' follow u ⟨base, { y with titles := ts, articles := as }⟩ =
      Embedded.listFromEntry X kind' follow u ⟨base, y⟩ := by
  have h1 : ∀ n e, Embedded.resolveLoop ⟨base, { y with titles := ts, articles := as }⟩ n e =
      Embedded.resolveLoop ⟨base, y⟩ n e := by
    intro n
    induction n with
    | zero => intro e; rfl
    | succ n ih =>
      intro e
      unfold Embedded.resolveLoop
      simp only [ih]
      rfl
  have h2 : ∀ n e, Embedded.resolve ⟨base, { y with titles := ts, articles := as }⟩ n e = Embedded.resolve ⟨base, y⟩ n e := by
    intro n e
    unfold Embedded.resolve
    rw [h1]
  unfold Embedded.listFromEntry
  simp only [h2]
  rfl

theorem titleList_congr (base : Nat) (y : Zim) (ts : Option PointerList) (as : PointerList) :
    Embedded.titleList X kind' follow ⟨base, { y with titles := ts, articles := as }⟩ =
      Embedded.titleList X kind' follow ⟨base, y⟩ := by
  unfold Embedded.titleList
  rw [listing_congr]
  rfl

/-- the parts of opening an archive with the default policy -/
theorem loaded_parts (h : Embedded.load X kind' follow base file = .ok z) :
    ∃ header mimetypes f urls clusters, Header.fromFile ⟨file, 0⟩ base = .ok header ∧
      MimeTypeList.fromFile ⟨file, 0⟩ (some (base + header.mimeListPosition)) = some (mimetypes, f) ∧
      PointerList.fromFile 8 ⟨file, 0⟩ header.entryCount (base + header.urlPointerPosition) = .ok urls ∧
      PointerList.fromFile 8 ⟨file, 0⟩ header.clusterCount (base + header.clusterPointerPosition) = .ok clusters ∧
      z.base = base ∧ z.zim.file = file ∧ z.zim.header = { header with mutable := false } ∧
      z.zim.mimetypes = { mimetypes with mutable := false } ∧ z.zim.closed = false ∧
      z.zim.urls = { urls with mutable := false } ∧ z.zim.clusters = { clusters with mutable := false } ∧
      (¬ (6 < header.majorVersion ∨ (header.majorVersion = 6 ∧ 3 ≤ header.minorVersion)) →
        ∃ ts, z.titleList X kind' follow = .ok ts ∧ z.zim.titles = some { ts with mutable := false }) ∧
      ((z.hasEntry "Xlisting/titleOrdered/v1" = .ok true ∧
          ∃ as, z.listFromEntry X kind' follow "Xlisting/titleOrdered/v1" = .ok as ∧
            z.zim.articles = { as with mutable := false }) ∨
        z.hasEntry "Xlisting/titleOrdered/v1" = .ok false) := by
  unfold Embedded.load at h
  rcases h1 : Header.fromFile ⟨file, 0⟩ base with x | header
  · rw [h1] at h; cases h
  rw [h1] at h
  simp only [bind, Except.bind] at h
  rcases h2 : MimeTypeList.fromFile ⟨file, 0⟩ (some (base + header.mimeListPosition)) with _ | ⟨mimetypes, f⟩
  · rw [h2] at h; cases h
  rw [h2] at h
  simp only at h
  rcases h3 : PointerList.fromFile 8 ⟨file, 0⟩ header.entryCount (base + header.urlPointerPosition) with x | urls
  · rw [h3] at h; cases h
  rw [h3] at h
  simp only at h
  rcases h4 : PointerList.fromFile 8 ⟨file, 0⟩ header.clusterCount (base + header.clusterPointerPosition) with x | clusters
  · rw [h4] at h; cases h
  rw [h4] at h
  simp only at h
  refine ⟨header, mimetypes, f, urls, clusters, rfl, h2, h3, h4, ?_⟩
  by_cases hv : 6 < header.majorVersion ∨ (header.majorVersion = 6 ∧ 3 ≤ header.minorVersion)
  · simp only [if_pos hv] at h
    split at h
    · cases h
    rename_i has hhas
    cases has with
    | true =>
      simp only [if_true] at h
      split at h
      · cases h
      rename_i as has'
      injection h with h
      subst h
      exact ⟨rfl, rfl, rfl, rfl, rfl, rfl, rfl, fun hv' => absurd hv hv', .inl ⟨hhas, as, (listing_congr ..).trans has', rfl⟩⟩
    | false =>
      injection h with h
      subst h
      exact ⟨rfl, rfl, rfl, rfl, rfl, rfl, rfl, fun hv' => absurd hv hv', .inr hhas⟩
  · simp only [if_neg hv] at h
    split at h
    · cases h
    rename_i t ht
    split at h
    · cases h
    rename_i has hhas
    cases has with
    | true =>
      simp only [if_true] at h
      split at h
      · cases h
      rename_i as has'
      injection h with h
      subst h
      exact ⟨rfl, rfl, rfl, rfl, rfl, rfl, rfl, fun _ => ⟨t, (titleList_congr ..).trans ht, rfl⟩, .inl ⟨hhas, as, (listing_congr ..).trans has', rfl⟩⟩
    | false =>
      injection h with h
      subst h
      exact ⟨rfl, rfl, rfl, rfl, rfl, rfl, rfl, fun _ => ⟨t, (titleList_congr ..).trans ht, rfl⟩, .inr hhas⟩

/-- the archive before its lists of titles are read -/
def started (base : Nat) (file : Bytes) (header : Header) (mimetypes : MimeTypeList) : LowRam where
  base := base
  file := file
  header := { header with mutable := false }
  mimetypes := { mimetypes with mutable := false }
  urls := { file := file, offset := base + header.urlPointerPosition, n := header.entryCount, w := 8 }
  clusters := { file := file, offset := base + header.clusterPointerPosition, n := header.clusterCount, w := 8 }
  articles := { file := file, offset := 0, n := 0, w := 4 }

theorem shows_same (h : SameParts l z) (ha : l.articles.Agree z.zim.articles) : ShowsSame X l z where
  header := h.header
  mimetypes := h.mimetypes
  byIndex i := congrFun h.entryByIndex i
  byUrl := h.byUrl
  has := h.has
  mainPage := h.mainPage
  entries := h.iterEntries
  articles start stop := by
    unfold iterArticles Embedded.iterArticles
    rw [ha.iteration, h.entryByIndex]
  resolved := h.resolve
  contents := h.readContent
  sizes := h.contentSize

/-- **C96.** An archive with a list of the titles of articles can be opened with `LOW_RAM_DECOMP_POLICY` and shows the same as with
the default policy, if its lists of titles are in clusters that are not compressed. -/
theorem C96_same_partial (P : Passthrough X C) (hz : Embedded.load X kind' follow base file = .ok z)
    (h1 : z.hasEntry "Xlisting/titleOrdered/v1" = .ok true) (hp : PlainListing z follow "Xlisting/titleOrdered/v1")
    (hp0 : ¬ Embedded.NewVersion z.zim.header → z.hasEntry "Xlisting/titleOrdered/v0" = .ok true →
      PlainListing z follow "Xlisting/titleOrdered/v0") :
    ∃ l, load X kind follow base file = .ok l ∧ ShowsSame X l z := by
  obtain ⟨header, mimetypes, f, urls, clusters, g1, g2, g3, g4, e1, e2, e3, e4, e5, e6, e7, g5, g6⟩ := loaded_parts hz
  have hS : ∀ ts as, SameParts { started base file header mimetypes with titles := ts, articles := as } z := fun ts as =>
    { base := e1.symm, file := e2.symm, header := e3.symm, mimetypes := e4.symm, closed := e5.symm
      urls := by rw [e6]; exact (OnDiskList.agree_of_file (by omega) g3).immutable
      clusters := by rw [e7]; exact (OnDiskList.agree_of_file (by omega) g4).immutable }
  rcases g6 with ⟨-, as, g7, g8⟩ | g6
  · have ht : ∃ ts, (if 6 < header.majorVersion ∨ (header.majorVersion = 6 ∧ 3 ≤ header.minorVersion) then .ok none
        else match titleList X kind follow (started base file header mimetypes) with
          | .error x => .error x
          | .ok l => .ok (some l) : PyRes (Option OnDiskList)) = .ok ts := by
      by_cases hv : 6 < header.majorVersion ∨ (header.majorVersion = 6 ∧ 3 ≤ header.minorVersion)
      · exact ⟨none, by rw [if_pos hv]⟩
      · rw [if_neg hv]
        obtain ⟨ts, t1, -⟩ := g5 hv
        have hS' : SameParts (started base file header mimetypes) z := hS none _
        have : ∃ d, titleList X kind follow (started base file header mimetypes) = .ok d := by
          unfold Embedded.titleList at t1
          unfold titleList
          rw [hS'.has]
          rcases hb : z.hasEntry "Xlisting/titleOrdered/v0" with x | b
          · rw [hb] at t1; cases t1
          · rw [hb] at t1
            cases b with
            | false => exact ⟨_, rfl⟩
            | true =>
              obtain ⟨d, hd, -⟩ := hS'.listing (kind := kind) P (hp0 (by rw [e3]; exact hv) hb) e5 t1
              exact ⟨d, hd⟩
        obtain ⟨d, hd⟩ := this
        exact ⟨some d, by rw [hd]⟩
    obtain ⟨ts, ht⟩ := ht
    obtain ⟨d, hd, ha⟩ := (hS ts (started base file header mimetypes).articles).listing (kind := kind) P hp e5 g7
    refine ⟨{ started base file header mimetypes with titles := ts, articles := d }, ?_, shows_same (hS ts d) ?_⟩
    · unfold load
      rw [g1]
      simp only [bind, Except.bind, g2]
      have hh : hasEntry (started base file header mimetypes) "Xlisting/titleOrdered/v1" = .ok true :=
        ((hS none (started base file header mimetypes).articles).has _).trans h1
      by_cases hv : 6 < header.majorVersion ∨ (header.majorVersion = 6 ∧ 3 ≤ header.minorVersion)
      · rw [if_pos hv] at ht
        injection ht with ht
        subst ht
        unfold started at hd hh ⊢
        simp only [if_pos hv, hh, if_true, hd]
      · rw [if_neg hv] at ht
        rcases hl : titleList X kind follow (started base file header mimetypes) with x | t
        · rw [hl] at ht; cases ht
        · rw [hl] at ht
          injection ht with ht
          subst ht
          unfold started at hd hh hl ⊢
          simp only [if_neg hv, hh, if_true, hd, hl]
    · rw [g8]
      exact ha.immutable
  · rw [g6] at h1
    cases h1

/-- **C96, finding.** Archives without a list of the titles of articles, which all other policies accept, can not be opened with
`LOW_RAM_DECOMP_POLICY`. (For the versions since 6.3, in which there is no other list to be read before.) -/
theorem C96_no_list (hz : Embedded.load X kind' follow base file = .ok z)
    (hv : 6 < z.zim.header.majorVersion ∨ (z.zim.header.majorVersion = 6 ∧ 3 ≤ z.zim.header.minorVersion))
    (h1 : z.hasEntry "Xlisting/titleOrdered/v1" = .ok false) : load X kind follow base file = .error .operationNotSupported := by
  obtain ⟨header, mimetypes, f, urls, clusters, g1, g2, g3, g4, e1, e2, e3, e4, e5, e6, e7, -, -⟩ := loaded_parts hz
  have hS : SameParts (started base file header mimetypes) z :=
    { base := e1.symm, file := e2.symm, header := e3.symm, mimetypes := e4.symm, closed := e5.symm
      urls := by rw [e6]; exact (OnDiskList.agree_of_file (by omega) g3).immutable
      clusters := by rw [e7]; exact (OnDiskList.agree_of_file (by omega) g4).immutable }
  have hh := (hS.has "Xlisting/titleOrdered/v1").trans h1
  rw [e3] at hv
  have hv' : 6 < header.majorVersion ∨ (header.majorVersion = 6 ∧ 3 ≤ header.minorVersion) := hv
  unfold load
  rw [g1]
  simp only [bind, Except.bind, g2, if_pos hv']
  unfold started at hh
  simp only [hh]
  rfl

/-- **C96, finding.** With this policy, asking whether an entry is an article raises `IndexError`, in every archive that has
articles and for every entry in the namespace of articles. -/
theorem C96_is_article_raises {u : String} (ho : l.closed = false) (ha : 0 < l.articles.n) (hu : u.toList.head? = some 'C')
    {i : Nat} (hi : l.urls.getIndex l.urlKey (encode u) = .ok i) : l.entryIsArticle u = .error .indexError := by
  unfold entryIsArticle
  rw [if_neg (by rw [hu]; simp), ho, hi]
  have : l.articles.getByPointer i = .error .indexError := by
    unfold OnDiskList.getByPointer OnDiskList.len
    obtain ⟨n, hn⟩ : ∃ n, l.articles.n = n + 1 := ⟨l.articles.n - 1, by omega⟩
    rw [hn, List.range_succ_eq_map]
    rfl
  simp only [Bool.false_eq_true, if_false, this]

/-! ### Concrete cases -/

/-- the header of the archives below -/
def lrHeader : Header :=
  { Embedded.demoHeader 3 with checksumPosition := 195, mainPageRaw := 0 }

/-- An archive with the article `Ca`, and the list of the titles of articles. -/
def lrFile (cluster : Bytes) : Bytes :=
  (lrHeader.toBytes.toOption.getD []) ++ [116, 0, 0] ++
  [107, 0, 0, 0, 0, 0, 0, 0] ++ [126, 0, 0, 0, 0, 0, 0, 0] ++ [167, 0, 0, 0, 0, 0, 0, 0] ++
  [0, 0, 0, 67, 0, 0, 0, 0, 0, 0, 0, 0, 0, 0, 0, 0, 97, 0, 0] ++
  [0, 0, 0, 88, 0, 0, 0, 0, 0, 0, 0, 0, 1, 0, 0, 0] ++ encode "listing/titleOrdered/v1" ++ [0, 0] ++
  cluster ++ List.replicate 16 9

/-- the content of the article, and the list -/
def lrBlobs : List Bytes := [[1, 2, 3], [0, 0, 0, 0]]

/-- the list is not compressed -/
def lrPlain : Bytes := lrFile (plainBytes false lrBlobs)

/-- the list is compressed -/
def lrPacked : Bytes := lrFile (5 :: Toy.enc (clusterBody 4 lrBlobs))

/-- the urls of the articles -/
def urlsOf (r : PyRes (List Entry)) : PyRes (List String) := r.map fun es => es.map Entry.fullUrl

theorem lr_facts :
    (match Embedded.load Toy.codecs .inMemory 3 0 lrPlain with
      | .ok z => decide (z.hasEntry "Xlisting/titleOrdered/v1" = .ok true ∧ z.hasEntry "Xlisting/titleOrdered/v0" = .ok false ∧
          z.zim.clusters.getByIndex 0 = .ok 167 ∧ z.base = 0 ∧ z.zim.file = lrPlain ∧
          urlsOf (z.iterArticles none none) = .ok ["Ca"]) &&
        (match z.entryByFullUrl "Xlisting/titleOrdered/v1" with
          | .ok e => decide (e.kind = .content 0 1)
          | .error _ => false)
      | .error _ => false) = true ∧
    (match Embedded.load Toy.codecs .inMemory 3 0 lrPacked, load Toy.codecs .onDisk 3 0 lrPacked with
      | .ok z, .ok l => decide (urlsOf (z.iterArticles none none) = .ok ["Ca"] ∧ urlsOf (l.iterArticles none none) ≠ .ok ["Ca"])
      | _, _ => false) = true ∧
    (match load Toy.codecs .onDisk 3 0 lrPlain with
      | .ok l => decide (l.closed = false ∧ 0 < l.articles.n ∧ l.urls.getIndex l.urlKey (encode "Ca") = .ok 0)
      | .error _ => false) = true ∧
    (match Embedded.load Toy.codecs .inMemory 3 0 (Embedded.demoFile 3) with
      | .ok z => decide ((z.zim.header.majorVersion = 6 ∧ 3 ≤ z.zim.header.minorVersion) ∧
          z.hasEntry "Xlisting/titleOrdered/v1" = .ok false)
      | .error _ => false) = true := by decide +kernel

/-- The conditions of `C96_same_partial` can be met: the articles of the archive in which the list is not compressed. -/
example : ∃ l z, load Toy.codecs .onDisk 3 0 lrPlain = .ok l ∧ Embedded.load Toy.codecs .inMemory 3 0 lrPlain = .ok z ∧
    ShowsSame Toy.codecs l z ∧ urlsOf (l.iterArticles none none) = .ok ["Ca"] := by
  have h := lr_facts.1
  cases hz : Embedded.load Toy.codecs .inMemory 3 0 lrPlain with
  | error x => rw [hz] at h; cases h
  | ok z =>
    rw [hz] at h
    simp only [Bool.and_eq_true] at h
    obtain ⟨h, h'⟩ := h
    obtain ⟨h1, h2, h3, h4, h5, h6⟩ := of_decide_eq_true h
    cases he : z.entryByFullUrl "Xlisting/titleOrdered/v1" with
    | error x => rw [he] at h'; cases h'
    | ok e =>
      rw [he] at h'
      have hk : e.kind = .content 0 1 := of_decide_eq_true h'
      obtain ⟨l, g1, g2⟩ := C96_same_partial (kind := .onDisk) Toy.replaceable.plain hz h1
        ⟨e, e, 0, 1, 167, false, lrBlobs, he, by unfold Embedded.resolve; simp only [hk], hk, h3,
          by rw [h4, h5]; unfold Holds; decide +kernel, by unfold PlainFits; decide, by decide⟩
        (fun _ hh => by rw [h2] at hh; cases hh)
      exact ⟨l, z, g1, rfl, g2, by rw [g2.articles]; exact h6⟩

/-- **C96, finding.** If the list of the titles of articles is compressed, the policy reads it where it would be if it was not:
the archive does not show its articles. -/
theorem C96_compressed_fails : ∃ file l z, load Toy.codecs .onDisk 3 0 file = .ok l ∧
    Embedded.load Toy.codecs .inMemory 3 0 file = .ok z ∧ urlsOf (z.iterArticles none none) = .ok ["Ca"] ∧
    ¬ ShowsSame Toy.codecs l z := by
  have h := lr_facts.2.1
  cases hz : Embedded.load Toy.codecs .inMemory 3 0 lrPacked with
  | error x => rw [hz] at h; cases h
  | ok z =>
    cases hl : load Toy.codecs .onDisk 3 0 lrPacked with
    | error x => rw [hz, hl] at h; cases h
    | ok l =>
      rw [hz, hl] at h
      obtain ⟨h1, h2⟩ := of_decide_eq_true h
      exact ⟨lrPacked, l, z, hl, hz, h1, fun hs => h2 (by rw [hs.articles]; exact h1)⟩

/-- The conditions of `C96_is_article_raises` can be met. -/
example : ∃ l, load Toy.codecs .onDisk 3 0 lrPlain = .ok l ∧ l.entryIsArticle "Ca" = .error .indexError := by
  have h := lr_facts.2.2.1
  cases hl : load Toy.codecs .onDisk 3 0 lrPlain with
  | error x => rw [hl] at h; cases h
  | ok l =>
    rw [hl] at h
    obtain ⟨h1, h2, h3⟩ := of_decide_eq_true h
    exact ⟨l, rfl, C96_is_article_raises h1 h2 (by decide) h3⟩

/-- The conditions of `C96_no_list` can be met, and **C96 is false in full.** -/
theorem C96_full_fails : ¬ C96Full (Bytes ⊕ Toy.Esc) := by
  intro hF
  have h := lr_facts.2.2.2
  cases hz : Embedded.load Toy.codecs .inMemory 3 0 (Embedded.demoFile 3) with
  | error x => rw [hz] at h; cases h
  | ok z =>
    rw [hz] at h
    obtain ⟨h1, h2⟩ := of_decide_eq_true h
    obtain ⟨l, g1, -⟩ := hF Toy.codecs .onDisk .inMemory 3 0 _ z hz
    rw [C96_no_list hz (.inr h1) h2] at g1
    cases g1

end LowRam

namespace Creator
open Strategy (item)
variable {D K : Type} {S : Setup D K} {c : Creator D} {done : List (List Sourced)} {recent : List Sourced}
  {rs : List Zim.Redirect} {md5 : Bytes → Bytes} {r : Nat} {mts : List String}

/-- **C96.** An archive that was written, without unsaved changes, can be read with `LOW_RAM_DECOMP_POLICY`, also behind other data:
it shows the same as with the default policy, which are exactly the items and redirects that were added. -/
theorem C96_written (hr : 2 ≤ r) (hS : S.Good md5 (some r)) (h : CreatorHist S c done recent rs)
    (hA : Apart rs (done ++ [recent])) (hd : c.arch.isDirty = false) (hmts : mts.length < 65534)
    (hl : ∀ l ∈ done ++ [recent], Batch mts l) (kind kind' : ClusterKind) (calls follow : Nat) (pre : Bytes) :
    ∃ l e z, LowRam.load S.X kind follow pre.length (pre ++ c.arch.zim.file) = .ok l ∧
      Embedded.load S.X kind' follow pre.length (pre ++ c.arch.zim.file) = .ok e ∧ ShowsSame S.X l e ∧
      ReadsAlike S.X kind' calls e z ∧ ShowsItems S.X kind' calls z (current (done ++ [recent])) rs := by
  obtain ⟨a, h1, h2⟩ := C70_items_survive hr hS h hA hd hmts hl kind' calls follow
    (fun z => Embedded.titleList S.X kind' follow (Embedded.behind pre z))
  have h3 := Embedded.load_behind (X := S.X) (kind := kind') (calls := calls) pre follow c.arch.zim.file
    (fun z => Embedded.titleList S.X kind' follow (Embedded.behind pre z)) (fun _ _ _ _ _ _ _ => rfl)
  have h4 : Archive.load (fun z => Embedded.titleList S.X kind' follow (Embedded.behind pre z))
      (Zim.listFromEntry S.X kind' calls follow "Xlisting/titleOrdered/v1") false c.arch.zim.file = .ok a := h1
  rw [h4] at h3
  have h5 : ReadsAlike S.X kind' calls (Embedded.behind pre a.zim) a.zim := Embedded.behind_alike pre (Embedded.load_mutable h4)
  have h3 : Embedded.load S.X kind' follow pre.length (pre ++ c.arch.zim.file) = .ok (Embedded.behind pre a.zim) := h3
  obtain ⟨Gb, -, G, P1, P2, ⟨rows, cs, extra, es, L, m0, R, B, hc, -⟩, -⟩ :=
    h.has hr hS hA (ML := encode placeholder.mimetype :: mts.map encode)
      (by rw [List.length_cons, List.length_map]; omega) List.mem_cons_self fun l h =>
        ⟨(hl l h).urls, (hl l h).size, fun p hp => ⟨List.mem_cons_of_mem _ (List.mem_map.2 ⟨_, (hl l h).mimetypes p hp, rfl⟩), (hl l h).other p hp⟩⟩
  have ha : a = Archive.loaded false { pointers := c.arch.zim.articles.pointers } c.arch := by
    have := hc.opens (S := { S with kind := kind', calls := calls, follow := follow }) hS.passthrough hd
      (fun z => Embedded.titleList S.X kind' follow (Embedded.behind pre z)) false
    rw [h1] at this
    injection this
  have hR := hc.readable hd
  obtain ⟨off, ext, hcs, hfit⟩ := hR.head
  obtain ⟨e, he1, he2, -⟩ := listing_of hR.entries hR.other hR.lists hR.parts.content
  have hent : (Embedded.behind pre a.zim).entryByFullUrl "Xlisting/titleOrdered/v1" = .ok e := by
    rw [h5.byUrl, ha]
    exact he1
  have hhas : (Embedded.behind pre a.zim).hasEntry "Xlisting/titleOrdered/v1" = .ok true := by
    rw [h5.has, ha]
    have hsh := hR.parts.content.rep.shows_iff.2 hR.lists
    have hh := hsh.has URL_ARTICLES
    cases hm : Zim.catalogue m0 es URL_ARTICLES with
    | none =>
      have := hsh.missing _ hm
      rw [he1] at this
      cases this
    | some v =>
      rw [hm] at hh
      exact hh
  obtain ⟨l, g1, g2⟩ := LowRam.C96_same_partial (kind := kind) hS.passthrough h3 hhas
    ⟨e, e, 0, 0, off, ext, [L], hent, by unfold Embedded.resolve; simp only [he2], he2, by
      rw [ha]; exact hR.parts.content.getByIndex hcs, by
      rw [ha]
      intro i hi
      have := hR.parts.content.held _ (List.mem_of_getElem? hcs) i hi
      show (pre ++ c.arch.zim.file)[pre.length + (off : Int).toNat + i]? = _
      rw [← this, List.getElem?_append_right (by omega)]
      congr 1
      omega, hfit, by simp⟩
    (fun hv => absurd (by rw [ha]; exact hR.parts.version) hv)
  exact ⟨l, _, a.zim, g1, h3, g2, h5, h2⟩

example (kind kind' : ClusterKind) (pre : Bytes) : ∃ l e z,
    LowRam.load Cluster.rawCodecs kind 0 pre.length (pre ++ demoE.arch.zim.file) = .ok l ∧
    Embedded.load Cluster.rawCodecs kind' 0 pre.length (pre ++ demoE.arch.zim.file) = .ok e ∧ ShowsSame Cluster.rawCodecs l e ∧
    ReadsAlike Cluster.rawCodecs kind' 0 e z ∧ ShowsItems Cluster.rawCodecs kind' 0 z
      [item "b" "image/png" [4, 5], item "c" "text/html" [6], item "a" "text/html" [7, 8]] [] :=
  C96_written (by omega) demoSetup_good demoE_hist (apart_nil _) demoE_clean (by decide) demoE_batches kind kind' 0 0 pre

end Creator
end Pyzim
