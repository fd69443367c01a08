import Verif.Lemmas.ChangeTotal
import Verif.Props.Renaming

/-!
# When removing and changing entries of an archive that is filled succeeds
-/

namespace Pyzim
namespace Creator

variable {D K : Type} {S : Setup D K} {md5 : Bytes → Bytes} {r : Nat} {c : Creator D} {done : List (List Sourced)}
  {recent : List Sourced} {rs : List Zim.Redirect} {mts : List String} {u : String}

/-- **C92.** Setting the mimetype of an item that was added before the last flush succeeds, unless the mimetype is empty or
contains a zero byte. The archive may have been filled, changed and reopened in any way before. -/
theorem C92_retype_succeeds (hr : 2 ≤ r) (hS : S.Good md5 (some r)) (h : EditHist S mts c done recent rs)
    (hmts : mts.length < 65534) (hdep : 0 < S.depth) (hu : u ≠ URL_ARTICLES) (hrec : ∀ p ∈ recent, p.1.fullUrl ≠ u)
    (hrs : ∀ x ∈ rs, x.1 ≠ u) (hex : ∃ p ∈ current done, p.1.fullUrl = u) {v : StrArg} {m : String} (hv : v.text = some m)
    (hm : m ∈ mts) (hm0 : m ≠ "") (hmz : (0 : UInt8) ∉ encode m) : ∃ c1, setMimetype S u v c = (.ok (), c1) :=
  h.retype_total hr hS (mimes_length hmts) List.mem_cons_self mimes_mem ⟨hu, hrec, hrs⟩ (Entry.both_spec v m hv) hm
    (fun h0 => hm0 (encode_injective (by rw [h0, encode_empty]))) hmz hex hdep

/-- **C86, partial.** Removing an item that was added before the last flush (an article, or an item behind all articles, that
no redirect leads to) and keeping its blob succeeds, if there are fewer entries than bytes are reserved for the header and the
mimetypes. -/
theorem C86_removal_succeeds_partial (hr : 2 ≤ r) (hr32 : 80 + r ≤ 2 ^ 32) (hS : S.Good md5 (some r))
    (h : EditHist S mts c done recent rs) (hmts : mts.length < 65534) (hdep : 2 ≤ S.depth) (hrm : Removable u done recent rs)
    (hex : ∃ p ∈ current done, p.1.fullUrl = u) (hn : c.arch.zim.urls.len < 80 + r) : ∃ c1, remove S .keep u c = (.ok (), c1) :=
  h.remove_total hr hS (mimes_length hmts) List.mem_cons_self mimes_mem hrm hex hdep hn hr32

/-- **C86, partial.** Removing a redirect that is in the archive (behind all articles, and no redirect leads to it) succeeds,
if there are fewer entries than bytes are reserved for the header and the mimetypes. -/
theorem C86_unlinking_succeeds_partial (hr : 2 ≤ r) (hr32 : 80 + r ≤ 2 ^ 32) (hS : S.Good md5 (some r))
    (h : EditHist S mts c done recent rs) (hmts : mts.length < 65534) (hdep : 2 ≤ S.depth) (hrm : Unlinked u done recent rs)
    (hex : c.arch.zim.hasEntry u = .ok true) (hn : c.arch.zim.urls.len < 80 + r) (mode : BlobMode) :
    ∃ c1, remove S mode u c = (.ok (), c1) :=
  h.unlink_total hr hS (mimes_length hmts) List.mem_cons_self mimes_mem hrm hex hdep hn hr32 mode

/-- **C92, partial.** Setting the title of an item that was added before the last flush, and that no redirect leads to,
succeeds, unless the title contains a zero byte, if there are fewer entries than bytes are reserved for the header and the
mimetypes. The new title may have another length, so that the entry is moved in the file. -/
theorem C92_retitle_succeeds_partial (hr : 2 ≤ r) (hr32 : 80 + r ≤ 2 ^ 32) (hS : S.Good md5 (some r))
    (h : EditHist S mts c done recent rs) (hmts : mts.length < 65534) (hdep : 2 ≤ S.depth) (hu : u ≠ URL_ARTICLES)
    (hrec : ∀ p ∈ recent, p.1.fullUrl ≠ u) (hrs : ∀ x ∈ rs, x.1 ≠ u ∧ x.2.1 ≠ u)
    (htg : ∀ x ∈ rs, ((done ++ [recent]).flatten.map fun p => p.1.fullUrl).count x.2.1 ≤ 1)
    (hex : ∃ p ∈ current done, p.1.fullUrl = u) (hn : c.arch.zim.urls.len < 80 + r) {v : Option StrArg} {t : String}
    (hv : (v.getD (.str "")).text = some t) (hz : (0 : UInt8) ∉ encode t) : ∃ c1, setTitle S u v c = (.ok (), c1) :=
  h.retitle_total hr hS (mimes_length hmts) List.mem_cons_self mimes_mem ⟨hu, hrec, fun x hx => (hrs x hx).1⟩
    (fun x hx => (hrs x hx).2) htg hex hdep hn hr32 (Entry.both_spec _ t hv) hz

/-- **C93, partial.** Giving an item another url, for which `Renamable` holds, succeeds, unless the new url contains a zero
byte, if there are fewer entries than bytes are reserved for the header and the mimetypes. -/
theorem C93_rename_succeeds_partial (hr : 2 ≤ r) (hr32 : 80 + r ≤ 2 ^ 32) (hS : S.Good md5 (some r))
    (h : EditHist S mts c done recent rs) (hmts : mts.length < 65534) (hdep : 2 ≤ S.depth) {w n : String}
    (hrn : Renamable u w n done recent rs)
    (htg : ∀ x ∈ rs, ((done ++ [recent]).flatten.map fun p => p.1.fullUrl).count x.2.1 ≤ 1)
    (hex : ∃ p ∈ current done, p.1.fullUrl = u) (hn : c.arch.zim.urls.len < 80 + r) {v : StrArg} (hv : v.text = some n)
    (hz : (0 : UInt8) ∉ encode n) : ∃ c1, setUrl S u v c = (.ok (), c1) :=
  h.rename_total hr hS (mimes_length hmts) List.mem_cons_self mimes_mem hrn htg hex hdep hn hr32 (Entry.both_spec v n hv) hz

/-! ### Examples -/

open Strategy (item)

theorem demoEs_facts : (demoZ4.arch.zim.urls.len < 80 + 90 ∧ demoAm2.arch.zim.urls.len < 80 + 90) ∧ demoRl3.arch.zim.urls.len < 80 + 90 ∧
    demoRl3.arch.zim.hasEntry "Cz" = .ok true := by decide +kernel

example : ∃ c1, setMimetype setupZ "Ca" (.str "text/plain") demoZ4 = (.ok (), c1) :=
  C92_retype_succeeds (by omega) setupZ_good (demoZ_hist.edit demoAm_sound) (by decide) (by decide) (by decide +kernel)
    (by decide +kernel) (by simp) ⟨_, .head _, by decide +kernel⟩ (m := "text/plain") rfl (.tail _ (.head _)) (by decide)
    (by decide +kernel)

example : ∃ c1, remove setupZ .keep "Ca" demoZ4 = (.ok (), c1) :=
  C86_removal_succeeds_partial (by omega) (by omega) setupZ_good (demoZ_hist.edit demoZ_sound) (by decide) (by decide)
    demoZ_removable ⟨_, .head _, by decide +kernel⟩ demoEs_facts.1.1

example (mode : BlobMode) : ∃ c1, remove setupZ mode "Cz" demoRl3 = (.ok (), c1) :=
  C86_unlinking_succeeds_partial (by omega) (by omega) setupZ_good demoRl_hist (by decide) (by decide) demoRl_unlinked
    demoEs_facts.2.2 demoEs_facts.2.1 mode

example : ∃ c1, setTitle setupZ "Ca" (some (.str "another title")) demoZ4 = (.ok (), c1) :=
  C92_retitle_succeeds_partial (by omega) (by omega) setupZ_good (demoZ_hist.edit demoAm_sound) (by decide) (by decide)
    (by decide +kernel) (by decide +kernel) (by simp) (by simp) ⟨_, .head _, by decide +kernel⟩ demoEs_facts.1.1
    (t := "another title") rfl (by decide +kernel)

example : ∃ c1, setUrl setupZ "Cb" (.str "z") demoAm2 = (.ok (), c1) :=
  C93_rename_succeeds_partial (by omega) (by omega) setupZ_good demoRe_hist (by decide) (by decide) demoRe_renamable (by simp)
    ⟨titledPage, .tail _ (.head _), by decide +kernel⟩ demoEs_facts.1.2 (n := "z") rfl (by decide +kernel)

end Creator
end Pyzim
