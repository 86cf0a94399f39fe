p("C199","What is downloaded is what the server has",
 "After every HTTP download that reports success — with a document or with 'not modified' — the local file is one of the contents that the server had while it was being downloaded. So no change of a repository is overlooked, however often and whenever it changes and is downloaded.",
 "all histories of publications of a file; all sequences of downloads of it, at all times, each with any failures and retries; all differences between the server's clock and the validator's", "The outcome depends on the history of both sides, and on their clocks.",
 ["src/http/http.c:http_download","src/http/http.c:get_ims","src/http/http.c:http_easy_init","src/http/http.c:http_fetch","src/http/http.c:do_retries"],
 "A server with dated contents that answers conditional requests as RFC 9110 says, libcurl's options, and the downloads of C96; an invariant over the sequence of downloads; a run in which the claim is false.")
p("C200","HTTPS downloads are authenticated and bounded",
 "The document of a successful HTTPS download comes from a server that was authenticated: every server asked on the way, however many redirections there are, has a certificate of a trusted authority for its name. There are no more redirections than configured, neither the connection nor the transfer takes longer than configured, and the request is the configured one (URL, user agent, CA path, condition).",
 "all configurations that the program accepts, all URLs, all transfers that libcurl's documented behaviour allows for the options it's given", "What libcurl does follows from the combination of its options and their defaults, for all servers.",
 ["src/http/http.c:http_easy_init","src/http/http.c:setopt_long","src/http/http.c:setopt_str","src/http/http.c:http_fetch"],
 "The options that are set, in order, and which of them libcurl refuses; libcurl's manual as a predicate of handles and transfers; theorems about every transfer that it allows, and transfers that it allows and shouldn't happen.")
