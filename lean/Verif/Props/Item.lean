import Verif.Model.Item
import Verif.Lemmas.Str
import Verif.Props.MimeTypeList

/-!
# C54: items and entries
-/

namespace Pyzim
namespace Item

/-- What the constructor and the setters guarantee. -/
structure Valid (it : Item) : Prop where
  ns : (encode it.ns).length = 1
  url : it.url.length ≠ 0 ∧ (0 : UInt8) ∉ encode it.url
  mimetype : it.mimetype.length ≠ 0 ∧ (0 : UInt8) ∉ encode it.mimetype
  title : ∀ t, it.titleRaw = some t → (0 : UInt8) ∉ encode t

/-- **C54.** The constructor succeeds exactly for valid values and yields them unchanged. -/
theorem C54_new (ns url mimetype : String) (source : BlobSource) (title : Option String) (a : Bool) (it : Item) :
    new ns url mimetype source title a = .ok it ↔
      it = { ns := ns, url := url, mimetype := mimetype, source := source, titleRaw := title, isArticle := a } ∧
      it.Valid := by
  unfold new setNamespace
  by_cases h1 : (encode ns).length = 1
  · simp only [h1, ne_eq, not_true, if_false]
    unfold setUrl
    by_cases h2 : url.length = 0
    · simp only [h2, if_true]
      constructor
      · intro h; cases h
      · rintro ⟨rfl, hv⟩; exact absurd h2 hv.url.1
    · simp only [h2, if_false]
      by_cases h3 : (0 : UInt8) ∈ encode url
      · simp only [h3, if_true]
        constructor
        · intro h; cases h
        · rintro ⟨rfl, hv⟩; exact absurd h3 hv.url.2
      · simp only [h3, if_false]
        unfold setMimetype
        by_cases h4 : mimetype.length = 0
        · simp only [h4, if_true]
          constructor
          · intro h; cases h
          · rintro ⟨rfl, hv⟩; exact absurd h4 hv.mimetype.1
        · simp only [h4, if_false]
          by_cases h5 : (0 : UInt8) ∈ encode mimetype
          · simp only [h5, if_true]
            constructor
            · intro h; cases h
            · rintro ⟨rfl, hv⟩; exact absurd h5 hv.mimetype.2
          · simp only [h5, if_false]
            cases title with
            | none =>
              simp only [setTitle, setIsArticle, setBlobSource]
              constructor
              · intro h
                cases h
                exact ⟨rfl, ⟨h1, ⟨h2, h3⟩, ⟨h4, h5⟩, fun t ht => by cases ht⟩⟩
              · rintro ⟨rfl, _⟩; rfl
            | some t =>
              simp only [setTitle, setBlobSource]
              by_cases h6 : (0 : UInt8) ∈ encode t
              · simp only [h6, if_true]
                constructor
                · intro h; cases h
                · rintro ⟨rfl, hv⟩; exact absurd h6 (hv.title t rfl)
              · simp only [h6, if_false, setIsArticle]
                constructor
                · intro h
                  cases h
                  exact ⟨rfl, ⟨h1, ⟨h2, h3⟩, ⟨h4, h5⟩, fun t' ht => by cases ht; exact h6⟩⟩
                · rintro ⟨rfl, _⟩; rfl
  · simp only [h1, ne_eq, not_false_eq_true, if_true]
    constructor
    · intro h; cases h
    · rintro ⟨rfl, hv⟩; exact absurd hv.ns h1

/-- **C54.** A refused change leaves the item as it was; an accepted one keeps it valid. -/
theorem C54_setters (it : Item) (hv : it.Valid) (v : String) (t : Option String) :
    (∀ r ∈ [it.setUrl v, it.setNamespace v, it.setMimetype v, it.setTitle t],
      r.2.Valid ∧ ∀ e, r.1 = .error e → e = .valueError ∧ r.2 = it) := by
  intro r hr
  simp only [List.mem_cons, List.not_mem_nil, or_false] at hr
  rcases hr with rfl | rfl | rfl | rfl
  · unfold setUrl
    split
    · exact ⟨hv, fun e he => ⟨by cases he; rfl, rfl⟩⟩
    · split
      · exact ⟨hv, fun e he => ⟨by cases he; rfl, rfl⟩⟩
      · rename_i h1 h2
        exact ⟨⟨hv.ns, ⟨h1, h2⟩, hv.mimetype, hv.title⟩, fun e he => by cases he⟩
  · unfold setNamespace
    split
    · exact ⟨hv, fun e he => ⟨by cases he; rfl, rfl⟩⟩
    · rename_i h1
      exact ⟨⟨by simpa using h1, hv.url, hv.mimetype, hv.title⟩, fun e he => by cases he⟩
  · unfold setMimetype
    split
    · exact ⟨hv, fun e he => ⟨by cases he; rfl, rfl⟩⟩
    · split
      · exact ⟨hv, fun e he => ⟨by cases he; rfl, rfl⟩⟩
      · rename_i h1 h2
        exact ⟨⟨hv.ns, hv.url, ⟨h1, h2⟩, hv.title⟩, fun e he => by cases he⟩
  · unfold setTitle
    split
    · exact ⟨⟨hv.ns, hv.url, hv.mimetype, fun t ht => by cases ht⟩, fun e he => by cases he⟩
    · split
      · exact ⟨hv, fun e he => ⟨by cases he; rfl, rfl⟩⟩
      · rename_i h1
        exact ⟨⟨hv.ns, hv.url, hv.mimetype, fun t ht => by cases ht; exact h1⟩, fun e he => by cases he⟩

/-- The entry made from an item, with mimetype number `id`. -/
theorem toEntry_spec (it : Item) (mts : MimeTypeList) (hm : mts.mutable = true)
    (ha : it.isArticle = true → it.ns = "C") :
    ∃ id : Nat, it.toEntry mts =
      (.ok { mimetypeId := id, ns := it.ns, url := it.url, titleRaw := some it.title
             kind := .content 0 0, oldFullUrl := some (it.ns ++ it.url)
             forceIsArticle := some it.isArticle, dirty := true },
        (mts.getIndex (encode it.mimetype) true).2) ∧
      (mts.getIndex (encode it.mimetype) true).1 = .ok (some id) := by
  obtain ⟨id, h1, _⟩ := MimeTypeList.C10_register mts hm (encode it.mimetype)
  refine ⟨id, ?_, h1⟩
  unfold toEntry
  have hsplit : mts.getIndex (encode it.mimetype) true =
      (.ok (some id), (mts.getIndex (encode it.mimetype) true).2) := by rw [← h1]
  rw [hsplit]
  simp only [Entry.newContent, Entry.afterFlushOrRead, and_self, if_true, Entry.setIsArticle, Bool.not_true,
    Bool.false_eq_true, if_false]
  have : ¬ (it.isArticle = true ∧ it.ns ≠ "C") := fun h => h.2 (ha h.1)
  rw [if_neg this]
  simp

/-- **C54.** An item turned into an entry has the item's namespace, url, title and article flag, and
a mimetype number that denotes the item's mimetype. An article must be in namespace `C`, and an
explicitly given title must not be empty (see `C54_empty_title`); there may be at most 65534
mimetypes. -/
theorem C54_to_entry (it : Item) (mts : MimeTypeList) (hm : mts.mutable = true) (hlen : mts.len < 65534)
    (ha : it.isArticle = true → it.ns = "C") (ht : it.titleRaw ≠ some "") :
    ∃ e, (it.toEntry mts).1 = .ok e ∧ e.ns = it.ns ∧ e.url = it.url ∧ e.fullUrl = it.ns ++ it.url ∧
      e.title = it.title ∧ e.isRedirect = false ∧
      (∀ lookup, e.isArticle lookup = .ok it.isArticle) ∧
      Counter.mimetypeOf (it.toEntry mts).2 e = .ok it.mimetype := by
  obtain ⟨id, h1, h2⟩ := toEntry_spec it mts hm ha
  obtain ⟨id', g1, g2, g3, g4, g5⟩ := MimeTypeList.C10_register mts hm (encode it.mimetype)
  rw [h2] at g1
  cases g1
  have hid : id < 65535 := by
    by_cases hmem : encode it.mimetype ∈ mts.mimetypes
    · rw [g4 hmem] at g2; omega
    · have := (g5 hmem).1; omega
  have hred : ∀ e : Entry, e.mimetypeId = id → e.isRedirect = false := by
    intro e he
    unfold Entry.isRedirect Entry.MIMETYPE_ID_REDIRECT
    rw [he]
    exact decide_eq_false (by omega)
  rw [h1]
  refine ⟨_, rfl, rfl, rfl, rfl, ?_, hred _ rfl, fun lookup => rfl, ?_⟩
  · unfold Entry.title
    simp only
    split
    · rename_i he
      unfold title at he ⊢
      cases hr : it.titleRaw with
      | none => rfl
      | some t => rw [hr] at he ht; simp only at he; exact absurd (by rw [he]) ht
    · rfl
  · unfold Counter.mimetypeOf
    rw [hred _ rfl]
    simp only [Bool.false_eq_true, if_false]
    rw [g3]
    exact decode_encode it.mimetype

/-- **C54.** Converting the entry back gives an item with the same values. -/
theorem C54_round_trip (it : Item) (hv : it.Valid) (mts : MimeTypeList) (hm : mts.mutable = true)
    (hlen : mts.len < 65534) (ha : it.isArticle = true → it.ns = "C") (ht : it.titleRaw ≠ some "")
    (lookup : Option String → Bool) (source : BlobSource) :
    ∃ e it', (it.toEntry mts).1 = .ok e ∧ fromEntry e (it.toEntry mts).2 lookup source = .ok it' ∧
      it'.ns = it.ns ∧ it'.url = it.url ∧ it'.mimetype = it.mimetype ∧ it'.title = it.title ∧
      it'.isArticle = it.isArticle ∧ it'.source = source := by
  obtain ⟨e, h1, h2, h3, h4, h5, h6, h7, h8⟩ := C54_to_entry it mts hm hlen ha ht
  have hk : ∃ c b, e.kind = .content c b := by
    obtain ⟨id, g1, _⟩ := toEntry_spec it mts hm ha
    rw [g1] at h1
    cases h1
    exact ⟨0, 0, rfl⟩
  obtain ⟨c, b, hk⟩ := hk
  have htn : it.title ≠ "" := by
    intro hc
    unfold title at hc
    cases hr : it.titleRaw with
    | none =>
      rw [hr] at hc
      simp only at hc
      exact hv.url.1 (by rw [hc]; rfl)
    | some t =>
      rw [hr] at hc ht
      simp only at hc
      exact ht (by rw [hc])
  have ht0 : (0 : UInt8) ∉ encode it.title := by
    unfold title
    cases hr : it.titleRaw with
    | none => exact hv.url.2
    | some t => exact hv.title t hr
  have hnew := (C54_new it.ns it.url it.mimetype source (some it.title) it.isArticle
    { ns := it.ns, url := it.url, mimetype := it.mimetype, source := source
      titleRaw := some it.title, isArticle := it.isArticle }).2
    ⟨rfl, ⟨hv.ns, hv.url, hv.mimetype, fun t h => by cases h; exact ht0⟩⟩
  refine ⟨e, { ns := it.ns, url := it.url, mimetype := it.mimetype, source := source
               titleRaw := some it.title, isArticle := it.isArticle }, h1, ?_, rfl, rfl, rfl, rfl, rfl, rfl⟩
  unfold fromEntry
  rw [hk]
  simp only [h8, h7, h5, h2, h3, ne_eq, htn, not_false_eq_true, if_true]
  exact hnew

/-- **C54, finding.** An item with the empty title becomes an entry whose title is its url. -/
theorem C54_empty_title :
    ∃ it e, Item.new "C" "a" "text/plain" BlobSourceObj.empty.toSource (some "") false = .ok it ∧
      (it.toEntry { mimetypes := [] }).1 = .ok e ∧ it.title = "" ∧ e.title = "a" := by
  refine ⟨{ ns := "C", url := "a", mimetype := "text/plain", source := BlobSourceObj.empty.toSource
            titleRaw := some "" },
    { mimetypeId := 0, ns := "C", url := "a", titleRaw := some "", kind := .content 0 0
      oldFullUrl := some "Ca", forceIsArticle := some false, dirty := true }, rfl, ?_, rfl, ?_⟩ <;>
    decide +kernel

/-- **C54, finding.** An article outside of namespace `C` can be created as an item but not turned
into an entry. -/
theorem C54_article_namespace :
    ∃ it, Item.new "M" "a" "text/plain" BlobSourceObj.empty.toSource none true = .ok it ∧
      (it.toEntry { mimetypes := [] }).1 = .error .valueError :=
  ⟨_, rfl, by decide +kernel⟩

/-- A valid article, two mimetypes being known already. -/
def demo : Item :=
  { ns := "C", url := "wiki/Ä", mimetype := "text/html", source := (BlobSourceObj.inMemory [1, 2]).toSource
    titleRaw := some "Ä", isArticle := true }

theorem demo_valid : demo.Valid := by
  have h := (C54_new demo.ns demo.url demo.mimetype demo.source demo.titleRaw demo.isArticle demo).1
    (by rfl)
  exact h.2

example : ∃ e it', (demo.toEntry { mimetypes := [[1], [2]] }).1 = .ok e ∧
    fromEntry e (demo.toEntry { mimetypes := [[1], [2]] }).2 (fun _ => false) demo.source = .ok it' ∧
    it'.ns = demo.ns ∧ it'.url = demo.url ∧ it'.mimetype = demo.mimetype ∧ it'.title = demo.title ∧
    it'.isArticle = demo.isArticle ∧ it'.source = demo.source :=
  C54_round_trip demo demo_valid { mimetypes := [[1], [2]] } rfl (by decide) (fun _ => rfl)
    (by decide +kernel) (fun _ => false) demo.source

end Item
end Pyzim
