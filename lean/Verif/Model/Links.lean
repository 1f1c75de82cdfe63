import Verif.Model.Id3v2Items
/-!
# Changing a link frame, `lofty/src/id3/v2/items/url_link_frame.rs`
-/
namespace Lofty.Id3v2

/-- `UrlLinkFrame::set_url`, items/url_link_frame.rs 109-117: whether the link was accepted, and the frame. -/
def UrlF.setUrl (f : UrlF) (url : Str) : Bool × UrlF :=
  if Text.verifyLatin1 url then (true, { f with url := url }) else (false, f)

end Lofty.Id3v2
