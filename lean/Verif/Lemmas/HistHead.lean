import Verif.Lemmas.HeaderKept

/-!
# The header in the histories of an archive
-/

namespace Pyzim
open Zim (Redirect)
variable {D K : Type} {S : Setup D K} {c c' : Creator D} {ML : List Bytes} {rs : List Redirect} {done : List (List Sourced)}
  {recent : List Sourced}

/-- what is assumed of the items and redirects of a history -/
structure Fine (ML : List Bytes) (rs : List Redirect) (done : List (List Sourced)) (recent : List Sourced) : Prop where
  apart : Apart rs (done ++ [recent])
  lists : ∀ l ∈ done ++ [recent], (l.map urlOf).Nodup ∧ NotHuge l ∧
    ∀ p ∈ l, encode p.1.mimetype ∈ ML ∧ p.1.fullUrl ≠ URL_ARTICLES

theorem Fine.add {p : Sourced} (h : Fine ML rs done (recent ++ [p])) : Fine ML rs done recent := by
  obtain ⟨hA, hm⟩ := h
  have hl := hm (recent ++ [p]) (by simp)
  refine ⟨hA.sub (List.Sublist.refl _) fun x hx q hq => ?_, fun l hl' => ?_⟩
  · rcases List.mem_append.1 hx with hx | hx
    · exact ⟨x, List.mem_append_left _ hx, hq⟩
    · rw [List.mem_singleton] at hx
      exact ⟨_, List.mem_append_right _ (List.mem_singleton.2 rfl), List.mem_append_left _ (hx ▸ hq)⟩
  · rcases List.mem_append.1 hl' with hl' | hl'
    · exact hm l (List.mem_append_left _ hl')
    · rw [List.mem_singleton] at hl'
      rw [hl']
      exact ⟨hl.1.sublist ((List.sublist_append_left recent [p]).map _), hl.2.1.sublist (List.sublist_append_left recent [p]),
        fun p hp => hl.2.2 p (List.mem_append_left _ hp)⟩

theorem Fine.redirect {r : Redirect} (h : Fine ML (rs ++ [r]) done recent) : Fine ML rs done recent :=
  ⟨h.apart.sub (List.sublist_append_left _ _) fun x hx q hq => ⟨x, hx, hq⟩, h.lists⟩

theorem Fine.set {u : String} {src : BlobSource} {content : Bytes} (hh : ∀ l ∈ done, NotHuge l)
    (h : Fine ML rs (setContentIn u src content done) recent) : Fine ML rs done recent := by
  refine ⟨h.apart.unset, fun l hl => ?_⟩
  rcases List.mem_append.1 hl with hl | hl
  · rcases setContentIn_old (u := u) (src := src) (content := content) hl with hl' | hl'
    · exact h.lists l (List.mem_append_left _ hl')
    · obtain ⟨k1, -, k2⟩ := h.lists _ (List.mem_append_left _ hl')
      refine ⟨?_, hh l hl, fun p hp => ?_⟩
      · rw [List.map_map] at k1
        have e : urlOf ∘ withContent u src content = urlOf := by funext p; exact withContent_url u src content p
        rwa [e] at k1
      · have := k2 _ (List.mem_map_of_mem hp)
        rwa [withContent_url, withContent_mimetype] at this
  · exact h.lists l (List.mem_append_right _ hl)

theorem Fine.flush (h : Fine ML rs (done ++ [recent]) []) : Fine ML rs done recent :=
  ⟨h.apart.sub (List.Sublist.refl _) fun x hx q hq => ⟨x, List.mem_append_left _ hx, hq⟩,
    fun l hl => h.lists l (List.mem_append_left _ hl)⟩

theorem Creator.plain_new {uuid : Bytes} {main plain : Strategy D} (hu : uuid.length = 16)
    (hok : Creator.new S uuid main plain = .ok c) : c.PlainHead := by
  unfold Creator.new at hok
  cases ha : Archive.new S.policy.reserveMimetypeSpace uuid with
  | error x => rw [ha] at hok; cases hok
  | ok a =>
    rw [ha] at hok
    simp only at hok
    have hp : a.zim.PlainHead := by
      unfold Archive.new at ha
      simp only at ha
      split at ha
      · cases ha
      · injection ha with ha
        subst ha
        exact ⟨⟨rfl, ⟨rfl, rfl⟩, hu, show 0xffffffffffffffff < 2 ^ 64 by decide, rfl, show 0xffffffff < 2 ^ 32 by decide⟩, rfl⟩
    have H : Keeps Creator.PlainHead (Creator.addItem S Creator.placeholder true >>= fun _ =>
        Creator.onPlain (Strategy.flushOn (Zim.backend S.X S.C S.depth))) :=
      (Creator.plain_addItem _ _).bind fun _ c hc =>
        (Zim.backend_plain S.X S.C S.depth).flush (c.plain, c.arch.zim) hc
    have h1 := H { arch := a, main := main, plain := plain } hp
    split at hok
    · cases hok
    · rename_i c1 e
      injection hok with hok
      subst hok
      rw [e] at h1
      exact h1

theorem keeps_ok {σ α : Type} {P : σ → Prop} {m : PyM σ α} {s s' : σ} {x : PyRes α} (h : Keeps P m) (e : m s = (x, s'))
    (hs : P s) : P s' := by
  have := h s hs
  rwa [e] at this

/-- In a history, no main page is set. -/
theorem CreatorHist.plainHead {md5 : Bytes → Bytes} {r : Nat} (hr : 2 ≤ r)
    (hS : S.Good md5 (some r)) (h : CreatorHist S c done recent rs) (hML : ML.length < 65535)
    (hmt : encode Creator.placeholder.mimetype ∈ ML) (hF : Fine ML rs done recent) : c.PlainHead := by
  induction h with
  | new hu W n1 n2 hok => exact Creator.plain_new hu hok
  | add _ hp hok ih =>
    exact keeps_ok (Creator.plain_addItem _ _) hok (ih hF.add)
  | redirect _ hv hok hd ih =>
    exact keeps_ok (Creator.plain_addFullUrlRedirect _ _ _) hok (ih hF.redirect)
  | set _ hR hh hu hrec hd hok ih =>
    exact keeps_ok (Creator.plain_setContent _ _) hok (ih (hF.set hh))
  | flush _ hok ih =>
    exact keeps_ok Creator.plain_flush hok (ih hF.flush)
  | reopen hprev hd W n1 n2 hok ih =>
    obtain ⟨Gb, -, G, P1, P2, ⟨rows, cs, extra, es, L, m0, R, B, hc, hB⟩, -⟩ := hprev.has hr hS hF.apart hML hmt hF.lists
    have hp := ih hF
    unfold Creator.reopen at hok
    rw [hc.opens hS.passthrough hd _ true] at hok
    injection hok with hok
    subst hok
    exact ⟨⟨hp.1.1, hp.1.2, hp.1.3, hp.1.4, hp.1.5, hp.1.6⟩, rfl⟩

end Pyzim
