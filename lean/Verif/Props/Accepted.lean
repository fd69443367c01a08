import Verif.Spec.Accepted
import Verif.Props.Entry

/-!
# Which entries can be created, and what is stored then
-/

namespace Pyzim
namespace Entry

/-- **C103, in full.** Every entry that can be created and written is read as it was created. -/
def C103Full : Prop :=
  (∀ (mt : Nat) (ns : String) (rev c k : Nat) (url : String) (title : Option String) (ps : List String) (e : Entry) (b : Bytes),
    newContent mt ns rev c k url title ps = .ok e → e.toBytes = .ok b → StoredAsIs e b) ∧
  ∀ (ns : String) (rev i : Nat) (url : String) (title : Option String) (ps : List String) (e : Entry) (b : Bytes),
    newRedirect ns rev i url title ps = .ok e → e.toBytes = .ok b → StoredAsIs e b

theorem storable_of_toBytes {e : Entry} {b : Bytes} (hb : e.toBytes = .ok b) (hu : (0 : UInt8) ∉ encode e.url)
    (ht : ∀ t, e.titleRaw = some t → (0 : UInt8) ∉ encode t) : Storable e := by
  obtain ⟨⟨hd, hhd⟩, t, h1⟩ := (toBytes_ok_iff e).1 ⟨b, hb⟩
  obtain ⟨h2, h3, h4⟩ := packHead_fits e hd hhd
  exact ⟨h2, hu, ⟨t, h1, ht t h1⟩, h3, h4⟩

theorem storedAsIs_of {e : Entry} {b bytes : Bytes} {f : PyFile} (hb : e.toBytes = .ok b) (h1 : e.toBytes = .ok bytes)
    (h2 : fromFile ⟨[] ++ bytes ++ [], 0⟩ (some 0) = some (.ok e.fresh, f)) : StoredAsIs e b := by
  rw [hb] at h1
  injection h1 with h1
  subst h1
  rw [List.nil_append, List.append_nil] at h2
  refine ⟨e.fresh, ?_, rfl, rfl, rfl, rfl, rfl⟩
  unfold readBack
  rw [show fromFile ⟨b, 0⟩ none = some (.ok e.fresh, f) from h2]

/-- **C103, partial.** An entry for content that can be created and written is read as it was created, if url and title have
no zero byte and the index of the mimetype is not that of redirects. Missing: the other ones. -/
theorem C103_content_partial {mt : Nat} {ns : String} {rev c k : Nat} {url : String} {title : Option String} {ps : List String}
    {e : Entry} {b : Bytes} (h : newContent mt ns rev c k url title ps = .ok e) (hb : e.toBytes = .ok b) (hm : mt ≠ 0xffff)
    (hu : (0 : UInt8) ∉ encode url) (ht : ∀ t, title = some t → (0 : UInt8) ∉ encode t) : StoredAsIs e b := by
  unfold newContent at h
  split at h
  · injection h with h
    subst h
    obtain ⟨bytes, h1, -, h2⟩ := C14_round_trip _ (storable_of_toBytes hb hu ht) c k rfl hm [] [] 0
    exact storedAsIs_of hb h1 h2
  · cases h

/-- **C103, partial.** The same for redirects. -/
theorem C103_redirect_partial {ns : String} {rev i : Nat} {url : String} {title : Option String} {ps : List String}
    {e : Entry} {b : Bytes} (h : newRedirect ns rev i url title ps = .ok e) (hb : e.toBytes = .ok b)
    (hu : (0 : UInt8) ∉ encode url) (ht : ∀ t, title = some t → (0 : UInt8) ∉ encode t) : StoredAsIs e b := by
  unfold newRedirect at h
  split at h
  · injection h with h
    subst h
    obtain ⟨bytes, h1, -, h2⟩ := C15_round_trip _ (storable_of_toBytes hb hu ht) i rfl rfl [] [] 0
    exact storedAsIs_of hb h1 h2
  · cases h

/-- **C103.** Urls and titles with a zero byte are refused by the setters, which leave the entry as it is. -/
theorem C103_setters (e : Entry) (s : String) (h : (0 : UInt8) ∈ encode s) :
    e.setUrl (.str s) = (.error .valueError, e) ∧ e.setTitle (some (.str s)) = (.error .valueError, e) := by
  constructor
  · unfold setUrl StrArg.both
    simp only [h, if_true]
  · simp only [setTitle, StrArg.both, Option.getD_some, h, if_true]

/-- **C103.** A redirect is created whatever its url and title are; a namespace that is not one byte or an index that does not
fit is only refused when the entry is written. -/
theorem C103_accepts (ns : String) (i : Nat) (url t : String) :
    ∃ e, newRedirect ns 0 i url (some t) [] = .ok e ∧ e.ns = ns ∧ e.url = url ∧ e.kind = .redirect i ∧
      ((∃ b, e.toBytes = .ok b) ↔ (encode ns).length = 1 ∧ i < 2 ^ 32) := by
  refine ⟨_, rfl, rfl, rfl, rfl, ?_⟩
  constructor
  · rintro ⟨b, hb⟩
    obtain ⟨h1, -, h2, -⟩ := C14_no_truncation _ b hb
    exact ⟨h1, h2⟩
  · rintro ⟨h1, h2⟩
    refine (toBytes_ok_iff _).2 ⟨?_, t, rfl⟩
    have := packHead_ok (afterFlushOrRead { mimetypeId := MIMETYPE_ID_REDIRECT, ns := ns, url := "", titleRaw := some "",
                                            kind := .redirect i })
      ⟨h1, show (0 : UInt8) ∉ encode "" by decide +kernel, ⟨"", rfl, by decide +kernel⟩,
        show MIMETYPE_ID_REDIRECT < 2 ^ 16 by decide, h2⟩
    exact this

/-- a redirect whose title has a zero byte -/
def zeroTitle : Entry := afterFlushOrRead
  { mimetypeId := MIMETYPE_ID_REDIRECT, ns := "C", url := "a", titleRaw := some "x\x00y", kind := .redirect 3 }
/-- … as it is written … -/
def zeroBytes : Bytes := zeroTitle.toBytes.toOption.getD []

theorem zero_facts : newRedirect "C" 0 3 "a" (some "x\x00y") [] = .ok zeroTitle ∧ zeroTitle.toBytes = .ok zeroBytes ∧
    (readBack zeroBytes).map Entry.title = some "x" ∧ zeroTitle.title = "x\x00y" := by
  decide +kernel

/-- **C103, finding.** The claim is false in full: a redirect with a title that contains a zero byte can be created and
written, and is read with a shorter title. -/
theorem C103_full_fails : ¬ C103Full := by
  intro h
  obtain ⟨e', h1, -, -, h2, -⟩ := h.2 "C" 0 3 "a" (some "x\x00y") [] zeroTitle zeroBytes zero_facts.1 zero_facts.2.1
  have h3 := zero_facts.2.2.1
  rw [h1, Option.map_some, h2, zero_facts.2.2.2] at h3
  revert h3
  decide

/-- a page with a zero byte in its url -/
def zeroUrl : Entry := afterFlushOrRead
  { mimetypeId := 0, ns := "C", url := "a\x00b", titleRaw := some "t", kind := .content 1 2 }

/-- **C103, finding.** A zero byte in an url: the entry is read with another url, and the rest of the url is its title. -/
theorem C103_zero_url : newContent 0 "C" 0 1 2 "a\x00b" (some "t") [] = .ok zeroUrl ∧
    (zeroUrl.toBytes.toOption.bind readBack).map (fun e => (e.url, e.title)) = some ("a", "b") := by
  decide +kernel

/-- an entry that is read as it was created -/
def plainEntry : Entry := afterFlushOrRead
  { mimetypeId := 3, ns := "C", url := "a/é", titleRaw := some "Title", kind := .content 1 2 }

theorem plainEntry_facts : newContent 3 "C" 0 1 2 "a/é" (some "Title") [] = .ok plainEntry ∧
    plainEntry.toBytes = .ok (plainEntry.toBytes.toOption.getD []) := by decide +kernel

example : StoredAsIs plainEntry (plainEntry.toBytes.toOption.getD []) :=
  C103_content_partial plainEntry_facts.1 plainEntry_facts.2 (by decide) (by decide +kernel)
    (by intro t h; injection h with h; subst h; decide +kernel)

end Entry
end Pyzim
