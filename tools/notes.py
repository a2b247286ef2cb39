NOTES = {}
